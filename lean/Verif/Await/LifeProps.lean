import Verif.Await.Props

/-!
Claims C103 and C104: the arguments of a call and the client itself may go while a call is under way, for some calls and not for others.
-/

namespace Verif

open Client Validation Await
open Server hiding Ends

variable {D : Type}

/-! ### Which bodies allow it -/

theorem free_give {T : Type} (a o : Bool) (f : T → Val D) (t : Option T) : Free a o (give f t) := by cases t <;> trivial

theorem free_mode (c : Bool) (k : Bool → CBody D) (h : ∀ b, Free true false (k b)) : Free true false (mode c k) := by
  unfold mode
  split
  · exact ⟨rfl, fun s => h _⟩
  · exact h _

/-- Every call but `GetTaskResult` has done with its parameters when it has sent its request. -/
theorem neat_args (api : Api D) (h : ∀ id, api ≠ .taskResult id) : Neat true false (body api) := by
  cases api with
  | init info caps =>
    intro _ o
    cases o with
    | resp r =>
      dsimp only
      split
      · exact ⟨rfl, fun _ => trivial⟩
      · trivial
    | threw => trivial
    | nul => trivial
  | callTool name args => intro o; trivial
  | getPrompt name args => intro o; trivial
  | readResource uri => intro o; trivial
  | readRange uri off len => intro o; trivial
  | subscribe uri => intro o; trivial
  | unsubscribe uri => intro o; trivial
  | complete a => intro o; exact free_mode _ _ fun b => free_give _ _ _ _
  | ping =>
    intro o
    refine free_mode _ _ fun b => ?_
    split <;> trivial
  | callToolTask name args ttl =>
    intro o
    refine free_mode _ _ fun b => ?_
    split
    · trivial
    · exact ⟨rfl, fun _ => trivial⟩
  | getTask id => intro o; exact free_mode _ _ fun b => free_give _ _ _ _
  | cancelTask id => intro o; exact free_mode _ _ fun b => free_give _ _ _ _
  | taskResult id => exact absurd rfl (h id)
  | listTasks => intro o; exact free_mode _ _ fun b => free_give _ _ _ _
  | listTasksPaged c l => intro o; exact free_mode _ _ fun b => free_give _ _ _ _
  | list k =>
    intro s
    dsimp only
    split
    · trivial
    · intro o
      refine free_mode _ _ fun b => ?_
      split
      · trivial
      · exact ⟨rfl, fun _ => trivial⟩
  | listPaged k c l => intro o; exact free_mode _ _ fun b => free_give _ _ _ _

/-- The calls that only pass the answer on. -/
def PassesOn : Api D → Prop
  | .callTool _ _ | .getPrompt _ _ | .readResource _ | .readRange _ _ _ | .subscribe _ | .unsubscribe _ => True
  | _ => False

theorem neat_own (api : Api D) (h : PassesOn api) : Neat false true (body api) := by
  cases api <;> first | exact h.elim | (intro o; trivial)

/-- `KeptAll` from a condition on the operations alone, where all programs satisfy `P`. -/
theorem keptAll_of {P : CBody D → Prop} {O : COp D → Prop} (ops : List (COp D)) (hc : ∀ b, Op.call b ∈ ops → P b) (ho : ∀ op ∈ ops, O op)
    (hk : ∀ (s : CSys D) (op : COp D), (∀ (i : Nat) (x : CCall D), s.calls[i]? = some x → P x.prog) → O op → Kept s op) :
    ∀ s : CSys D, (∀ (i : Nat) (x : CCall D), s.calls[i]? = some x → P x.prog) → KeptAll s ops := by
  induction ops with
  | nil => intro s _; trivial
  | cons op ops ih =>
    intro s hs
    exact ⟨hk s op hs (ho op List.mem_cons_self),
      ih (fun b hb => hc b (List.mem_cons_of_mem _ hb)) (fun o h => ho o (List.mem_cons_of_mem _ h)) _
        (progs_step s op (fun b hb => hc b (by rw [hb]; exact List.mem_cons_self)) hs)⟩

/-! ### C103 -/

/-- The caller may give up the objects it passed to a call as soon as it has its future back: with every call but `GetTaskResult`, and a
client that is there all the time, nothing that is gone is ever read. What is missing: `GetTaskResult`, see the counterexample. -/
theorem C103_arguments_partial (s0 : Self D) (ops : List (COp D))
    (hc : ∀ b, Op.call b ∈ ops → ∃ api, b = body api ∧ ∀ id, api ≠ .taskResult id) (hd : Op.destroy ∉ ops) :
    ((Sys.init s0).run ops).ub = false := by
  refine (good_run ops _ (good_init s0) ?_).1
  refine keptAll_of (P := Neat true false) (O := fun op => op ≠ .destroy) ops (fun b hb => ?_) (fun op hop h => hd (h ▸ hop)) ?_ _
    (fun i x hx => by cases hx)
  · obtain ⟨api, rfl, h⟩ := hc b hb
    exact neat_args api h
  · intro s op hs hop
    cases op with
    | drop i => exact fun x hx => .inr (hs i x hx)
    | destroy => exact absurd rfl hop
    | _ => trivial

/-- The caller keeps what it passed until the call has given its result, and the client is destroyed only when no call is under way. -/
def Patient (s : CSys D) : COp D → Prop
  | .drop i => ∀ x : CCall D, s.calls[i]? = some x → ∃ r, x.st = .over r
  | .destroy => ∀ (i : Nat) (x : CCall D), s.calls[i]? = some x → ∃ r, x.st = .over r
  | _ => True

def PatientAll : CSys D → List (COp D) → Prop
  | _, [] => True
  | s, op :: ops => Patient s op ∧ PatientAll (s.step op) ops

/-- With a caller that keeps everything until the results are there, no call reads anything that is gone. -/
theorem C103_kept (s0 : Self D) (ops : List (COp D)) (h : PatientAll (Sys.init s0) ops) : ((Sys.init s0).run ops).ub = false := by
  refine (good_run ops _ (good_init s0) ?_).1
  have : ∀ (ops : List (COp D)) (s : CSys D), PatientAll s ops → KeptAll s ops := by
    intro ops
    induction ops with
    | nil => intro s _; trivial
    | cons op ops ih =>
      intro s h
      refine ⟨?_, ih _ h.2⟩
      have h1 := h.1
      cases op with
      | drop i => exact fun x hx => .inl (h1 x hx)
      | destroy => exact fun i x hx => .inl (h1 i x hx)
      | _ => trivial
  exact this ops _ h

/-- `GetTaskResult` with a string that the caller does not keep: whatever the task id and the result, when the answer comes after
`await_ready` the body looks the id up in a string that is gone (Client.cpp 1338). -/
theorem C103_task_result_counterexample (s0 : Self D) (id : Bytes) (i : RpcId) (v : JVal D) (more : List (COp D)) :
    ((Sys.init s0).run ([.call (body (.taskResult id)), .go 0, .go 0, .go 0, .drop 0, .fill 0 (.resp ⟨i, some v, none⟩), .go 0, .go 0] ++ more)).ub = true := by
  rw [run_append]
  have h : ((Sys.init s0).run [.call (body (.taskResult id)), .go 0, .go 0, .go 0, .drop 0, .fill 0 (.resp ⟨i, some v, none⟩), .go 0, .go 0]).ub = true := by
    unfold Sys.run
    simp [Sys.step, Sys.go, Sys.init, body, hasResult]
  rw [run_ub _ _ h]
  exact h

/-- The same caller is safe when the answer is there before `await_ready`, which is why a fast server does not show it. -/
theorem C103_task_result_fast (s0 : Self D) (id : Bytes) (i : RpcId) (v : JVal D) :
    ((Sys.init s0).run [.call (body (.taskResult id)), .go 0, .go 0, .fill 0 (.resp ⟨i, some v, none⟩), .go 0, .go 0, .drop 0, .go 0, .go 0, .go 0, .drop 0] : CSys D).ub = false := by
  obtain ⟨t, ht⟩ : ∃ t, give Val.json (taskResult s0.strict (s0.kinds id) (.resp ⟨i, some v, none⟩)) = (.ret t : CBody D) := by
    cases taskResult s0.strict (s0.kinds id) (.resp ⟨i, some v, none⟩) with
    | none => exact ⟨_, rfl⟩
    | some t => exact ⟨_, rfl⟩
  unfold Sys.run
  simp [Sys.step, Sys.go, Sys.init, body, hasResult, ht]

/-! ### C104 -/

/-- A client may be destroyed while calls that only pass the answer on (`CallTool`, `GetPrompt`, `ReadResource`, the two subscription
calls) are under way, and their arguments may be gone as well: nothing that is gone is ever read. What is missing: all other calls, see the
counterexamples. -/
theorem C104_destroyed_partial (s0 : Self D) (ops : List (COp D)) (hc : ∀ b, Op.call b ∈ ops → ∃ api, b = body api ∧ PassesOn api) :
    ((Sys.init s0).run ops).ub = false := by
  refine (good_run ops _ (good_init s0) ?_).1
  refine keptAll_of (P := fun b => Neat true false b ∧ Neat false true b) (O := fun _ => True) ops (fun b hb => ?_) (fun _ _ => trivial) ?_ _
    (fun i x hx => by cases hx)
  · obtain ⟨api, rfl, h⟩ := hc b hb
    refine ⟨neat_args api ?_, neat_own api h⟩
    rintro id rfl
    exact h
  · intro s op hs _
    cases op with
    | drop i => exact fun x hx => .inr (hs i x hx).1
    | destroy => exact fun i x hx => .inr (hs i x hx).2
    | _ => trivial

/-- A call that gets to its answer after the client was destroyed. -/
def lateOps (api : Api D) (o : Outcome D) : List (COp D) :=
  [.call (body api), .go 0, .go 0, .go 0, .go 0, .destroy, .fill 0 o, .go 0, .go 0, .go 0]

/-- A listing that is not in the cache: when the client is destroyed before the answer is worked on, the body reads and locks members of
the client that are gone (Client.cpp 1474, 1512-1517), whether the answer is a listing, an error or null; only an exception spares it. -/
theorem C104_list_counterexample (s0 : Self D) (k : Client.Kind) (hk : s0.cache.hit k = none) (o : Outcome D) (ho : o ≠ .threw) (more : List (COp D)) :
    ((Sys.init s0).run (lateOps (.list k) o ++ more)).ub = true := by
  rw [run_append]
  have h : ((Sys.init s0).run (lateOps (.list k) o)).ub = true := by
    cases o with
    | threw => exact absurd rfl ho
    | nul =>
      unfold Sys.run lateOps
      simp [Sys.step, Sys.go, Sys.init, body, hk, afterList, hasResult, mode, Kind.listing]
    | resp r =>
      obtain ⟨i, res, err⟩ := r
      cases err <;> cases res <;> (unfold Sys.run lateOps; simp [Sys.step, Sys.go, Sys.init, body, hk, afterList, hasResult, mode, Kind.listing])
  rw [run_ub _ _ h]
  exact h

/-- Every other call that does more than pass the answer on: an answer with a result makes it read the client that is gone. -/
theorem C104_result_counterexample (s0 : Self D) (api : Api D) (hp : ¬ PassesOn api) (hl : ∀ k, api = .list k → s0.cache.hit k = none)
    (i : RpcId) (v : JVal D) (more : List (COp D)) :
    ((Sys.init s0).run (lateOps api (.resp ⟨i, some v, none⟩) ++ more)).ub = true := by
  rw [run_append]
  have h : ((Sys.init s0).run (lateOps api (.resp ⟨i, some v, none⟩))).ub = true := by
    cases api with
    | list k =>
      have := C104_list_counterexample s0 k (hl k rfl) (.resp ⟨i, some v, none⟩) (by simp) []
      rw [List.append_nil] at this
      exact this
    | callTool => exact absurd trivial hp
    | getPrompt => exact absurd trivial hp
    | readResource => exact absurd trivial hp
    | readRange => exact absurd trivial hp
    | subscribe => exact absurd trivial hp
    | unsubscribe => exact absurd trivial hp
    | _ =>
      unfold Sys.run lateOps
      simp [Sys.step, Sys.go, Sys.init, body, hasResult, hasValue, mode]
  rw [run_ub _ _ h]
  exact h

/-! A client destroyed with two such calls under way, and one whose caller used temporaries. -/

example : (∀ b, Op.call b ∈ ([.call (body (.callTool (lit "a") .null)), .go 0, .go 0, .go 0, .drop 0, .call (body (.subscribe none)), .go 1, .go 1, .go 1, .destroy,
      .fill 1 .threw, .fill 0 .nul, .go 1, .go 1, .go 0, .go 0] : List (COp Empty)) → ∃ api, b = body api ∧ PassesOn api) ∧
    (match ((Sys.init plainSelf).run [.call (body (.callTool (lit "a") .null)), .go 0, .go 0, .go 0, .drop 0, .call (body (.subscribe none)), .go 1, .go 1, .go 1, .destroy,
      .fill 1 .threw, .fill 0 .nul, .go 1, .go 1, .go 0, .go 0]) with
      | ⟨_, false, _, [⟨_, .over (some (.json .null)), _, false, _⟩, ⟨_, .over (some .nothing), _, true, _⟩], false⟩ => true
      | _ => false) = true := by
  refine ⟨?_, by decide +kernel⟩
  intro b hb
  simp at hb
  rcases hb with rfl | rfl
  · exact ⟨_, rfl, trivial⟩
  · exact ⟨_, rfl, trivial⟩

example : (match ((Sys.init plainSelf).run [.call (body (.getTask (lit "t"))), .go 0, .go 0, .go 0, .drop 0, .fill 0 (okResp 0 (.obj [])), .go 0, .go 0, .go 0]) with
      | ⟨_, true, _, [⟨_, .over none, true, false, _⟩], false⟩ => true
      | _ => false) = true := by decide +kernel

/-- A patient caller. -/
example : PatientAll (Sys.init plainSelf) [.call (body .ping), .go 0, .fill 0 (okResp 0 (.obj [])), .go 0, .go 0, .go 0, .drop 0, .destroy] := by
  refine ⟨trivial, trivial, trivial, trivial, trivial, trivial, ?_, ?_, trivial⟩
  · intro x hx
    exact ⟨some .nothing, by cases hx; rfl⟩
  · intro i x hx
    cases i with
    | zero => exact ⟨some .nothing, by cases hx; rfl⟩
    | succ i => cases hx

end Verif
