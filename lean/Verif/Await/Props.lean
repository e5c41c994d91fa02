import Verif.Await.Lemmas

/-!
Claims C102 to C104: what the caller of a call of the client gets and when, what becomes of the arguments it passed, and what
destroying the client does to calls under way.
-/

namespace Verif

open Client Validation Await
open Server hiding Ends

variable {D : Type}

/-! ### What is said of the calls -/

/-- The parameters of a page: none at all, or those of the two that are given; only a positive limit counts. -/
def asked : Option Bytes → Option Int → Option (JVal D)
  | none, none => none
  | some c, none => some (.obj [(lit "cursor", .str c)])
  | none, some l => if l ≤ 0 then none else some (.obj [(lit "limit", .int l)])
  | some c, some l => if l ≤ 0 then some (.obj [(lit "cursor", .str c)]) else some (.obj [(lit "cursor", .str c), (lit "limit", .int l)])

theorem pageParams_eq (c : Option Bytes) (l : Option Int) : (pageParams c l : Option (JVal D)) = asked c l := by
  cases c <;> cases l <;> simp only [pageParams, asked, Option.map, optField, Option.filter] <;> try rfl
  all_goals
    rename_i l
    by_cases h : l ≤ 0
    · rw [if_pos h, if_neg (by simpa using h)]; rfl
    · rw [if_neg h, if_pos (by simpa using h)]; rfl

/-- The request of a call. -/
def question : Api D → Req D
  | .init info caps =>
    ⟨lit "initialize", some (.obj [(lit "protocolVersion", .str (lit "2025-11-25")), (lit "capabilities", caps), (lit "clientInfo", info)])⟩
  | .callTool name args => ⟨lit "tools/call", some (.obj [(lit "name", .str name), (lit "arguments", args)])⟩
  | .getPrompt name args => ⟨lit "prompts/get", some (.obj [(lit "name", .str name), (lit "arguments", args)])⟩
  | .readResource uri => ⟨lit "resources/read", some (.obj [(lit "uri", .str uri)])⟩
  | .readRange uri none none => ⟨lit "resources/read", some (.obj [(lit "uri", .str uri)])⟩
  | .readRange uri (some o) none => ⟨lit "resources/read", some (.obj [(lit "uri", .str uri), (lit "offset", .int o)])⟩
  | .readRange uri none (some l) => ⟨lit "resources/read", some (.obj [(lit "uri", .str uri), (lit "length", .int l)])⟩
  | .readRange uri (some o) (some l) => ⟨lit "resources/read", some (.obj [(lit "uri", .str uri), (lit "offset", .int o), (lit "length", .int l)])⟩
  | .subscribe none => ⟨lit "resources/subscribe", some (.obj [])⟩
  | .subscribe (some u) => ⟨lit "resources/subscribe", some (.obj [(lit "uri", .str u)])⟩
  | .unsubscribe none => ⟨lit "resources/unsubscribe", some (.obj [])⟩
  | .unsubscribe (some u) => ⟨lit "resources/unsubscribe", some (.obj [(lit "uri", .str u)])⟩
  | .complete ⟨ref, name, value, none⟩ =>
    ⟨lit "completion/complete", some (.obj [(lit "ref", ref), (lit "argument", .obj [(lit "name", .str name), (lit "value", .str value)])])⟩
  | .complete ⟨ref, name, value, some ctx⟩ =>
    ⟨lit "completion/complete",
      some (.obj [(lit "ref", ref), (lit "argument", .obj [(lit "name", .str name), (lit "value", .str value)]), (lit "context", ctx)])⟩
  | .ping => ⟨lit "ping", none⟩
  | .callToolTask name args none => ⟨lit "tools/call", some (.obj [(lit "name", .str name), (lit "arguments", args), (lit "task", .obj [])])⟩
  | .callToolTask name args (some t) =>
    ⟨lit "tools/call", some (.obj [(lit "name", .str name), (lit "arguments", args), (lit "task", .obj [(lit "ttl", .int t)])])⟩
  | .getTask id => ⟨lit "tasks/get", some (.obj [(lit "taskId", .str id)])⟩
  | .cancelTask id => ⟨lit "tasks/cancel", some (.obj [(lit "taskId", .str id)])⟩
  | .taskResult id => ⟨lit "tasks/result", some (.obj [(lit "taskId", .str id)])⟩
  | .listTasks => ⟨lit "tasks/list", none⟩
  | .listTasksPaged c l => ⟨lit "tasks/list", asked c l⟩
  | .list .tools => ⟨lit "tools/list", none⟩
  | .list .resources => ⟨lit "resources/list", none⟩
  | .list .templates => ⟨lit "resources/templates/list", none⟩
  | .list .prompts => ⟨lit "prompts/list", none⟩
  | .listPaged .tools c l => ⟨lit "tools/list", asked c l⟩
  | .listPaged .resources c l => ⟨lit "resources/list", asked c l⟩
  | .listPaged .templates c l => ⟨lit "resources/templates/list", asked c l⟩
  | .listPaged .prompts c l => ⟨lit "prompts/list", asked c l⟩

/-- What a call makes of the answer to its request (`none`: an exception), in a mode and, for `GetTaskResult`, for a kind of task. -/
def says (strict : Bool) (kind : Option Tasks.Kind) : Api D → Outcome D → Option (Val D)
  | .init _ _, .resp r => some (.caps (match r.error with | none => r.result | some _ => none))
  | .init _ _, _ => some (.caps none)
  | .callTool _ _, o | .getPrompt _ _, o | .readResource _, o | .readRange _ _ _, o => some (.json (replyValue o))
  | .subscribe _, _ | .unsubscribe _, _ => some .nothing
  | .complete _, o => (complete strict o).map .completion
  | .ping, o => if ping strict o then some .nothing else none
  | .callToolTask _ _ _, o => (callToolTask strict [] o).toOption.map fun p => .created p.1 p.2
  | .getTask _, o => (getTask strict [] o).toOption.map .task
  | .cancelTask _, o => (cancelTask strict [] o).toOption.map .task
  | .taskResult _, o => (taskResult strict kind o).map .json
  | .listTasks, o => (listTasks strict [] o).toOption.map fun p => .tasks p.1
  | .listTasksPaged _ _, o => (listTasks strict [] o).toOption.map .taskPage
  | .list k, o => (k.listing strict o).map .items
  | .listPaged k _ _, o => (Server.listPaged k.key k.item k.valid strict o).map .page

abbrev COp (D : Type) := Op (Self D) (Req D) (Outcome D) (Option (Val D))
abbrev CSys (D : Type) := Sys (Self D) (Req D) (Outcome D) (Option (Val D))
abbrev CCall (D : Type) := Await.Call (Self D) (Req D) (Outcome D) (Option (Val D))

/-- Only calls of the client are made, and nothing changes its mode. -/
def Calm : COp D → Prop
  | .call b => ∃ api, b = body api
  | .change u => ∀ s, (u s).strict = s.strict
  | _ => True

/-! ### Bodies that keep the mode -/

/-- A property of bodies that passes to what is left of them, with what it says of continuations. -/
structure Closed {S Q A R : Type} (F : Body S Q A R → Prop) (K : (A → Body S Q A R) → Prop) : Prop where
  arg : ∀ k, F (.arg k) → F k
  own : ∀ u k s, F (.own u k) → F (k s)
  ask : ∀ q k, F (.ask q k) → K k
  ans : ∀ k a, K k → F (k a)

/-- The property where a call stands. -/
def StHas {S Q A R : Type} (F : Body S Q A R → Prop) (K : (A → Body S Q A R) → Prop) : St S Q A R → Prop
  | .run b => F b
  | .check _ k | .wait _ k => K k
  | .over _ => True

theorem stHas_go {S Q A R : Type} {F : Body S Q A R → Prop} {K : (A → Body S Q A R) → Prop} (hc : Closed F K) (s : Sys S Q A R) (i : Nat)
    (x : Await.Call S Q A R) (hi : s.calls[i]? = some x) (h : ∀ (j : Nat) (y : Await.Call S Q A R), s.calls[j]? = some y → StHas F K y.st) :
    ∀ (j : Nat) (y : Await.Call S Q A R), (s.go i x).calls[j]? = some y → StHas F K y.st := by
  have hx := h i x hi
  have hset : ∀ z : Await.Call S Q A R, StHas F K z.st → ∀ (j : Nat) (y : Await.Call S Q A R), (s.calls.set i z)[j]? = some y → StHas F K y.st := by
    intro z hz j y hy
    rcases get_set hi hy with ⟨_, rfl⟩ | ⟨_, hy⟩
    · exact hz
    · exact h j y hy
  unfold Sys.go
  split
  · exact hset _ trivial
  · rename_i k hst
    rw [hst] at hx
    split
    · exact hset _ (hc.arg k hx)
    · exact h
  · rename_i u k hst
    rw [hst] at hx
    split
    · exact hset _ (hc.own u k _ hx)
    · exact h
  · rename_i q k hst
    rw [hst] at hx
    split
    · exact hset _ (hc.ask q k hx)
    · exact h
  · rename_i c k hst
    rw [hst] at hx
    split
    · exact hset _ (hc.ans k _ hx)
    · exact hset _ hx
  · rename_i c k hst
    rw [hst] at hx
    split
    · exact hset _ (hc.ans k _ hx)
    · exact h
  · exact h

theorem stHas_step {S Q A R : Type} {F : Body S Q A R → Prop} {K : (A → Body S Q A R) → Prop} (hc : Closed F K) (s : Sys S Q A R) (op : Op S Q A R)
    (hop : ∀ b, op = .call b → F b) (h : ∀ (j : Nat) (y : Await.Call S Q A R), s.calls[j]? = some y → StHas F K y.st) :
    ∀ (j : Nat) (y : Await.Call S Q A R), (s.step op).calls[j]? = some y → StHas F K y.st := by
  unfold Sys.step
  split
  · exact h
  · cases op with
    | call b =>
      dsimp only
      split
      · intro j z hz
        rcases Nat.lt_or_ge j s.calls.length with hj | hj
        · rw [List.getElem?_append_left hj] at hz
          exact h j z hz
        · rw [List.getElem?_append_right hj] at hz
          have : z = ⟨b, .run b, false, true, []⟩ := by
            cases hjj : j - s.calls.length with
            | zero => rw [hjj] at hz; exact (Option.some.inj hz).symm
            | succ n => rw [hjj] at hz; cases hz
          subst this
          exact hop b rfl
      · exact h
    | go i =>
      dsimp only
      split
      · rename_i x hx; exact stHas_go hc s i x hx h
      · exact h
    | fill c a => dsimp only; split <;> exact h
    | drop i =>
      dsimp only
      split
      · rename_i x hx
        split
        · intro j y hy
          rcases get_set hx hy with ⟨_, rfl⟩ | ⟨_, hy⟩
          · exact h i x hx
          · exact h j y hy
        · exact h
      · exact h
    | change u => dsimp only; split <;> exact h
    | destroy => dsimp only; split <;> exact h

theorem stHas_run {S Q A R : Type} {F : Body S Q A R → Prop} {K : (A → Body S Q A R) → Prop} (hc : Closed F K) (s0 : S) (ops : List (Op S Q A R))
    (hop : ∀ b, Op.call b ∈ ops → F b) :
    ∀ (j : Nat) (y : Await.Call S Q A R), ((Sys.init s0).run ops).calls[j]? = some y → StHas F K y.st := by
  have : ∀ (ops : List (Op S Q A R)) (s : Sys S Q A R), (∀ b, Op.call b ∈ ops → F b) →
      (∀ (j : Nat) (y : Await.Call S Q A R), s.calls[j]? = some y → StHas F K y.st) →
      ∀ (j : Nat) (y : Await.Call S Q A R), (s.run ops).calls[j]? = some y → StHas F K y.st := by
    intro ops
    induction ops with
    | nil => intro s _ h; exact h
    | cons op ops ih =>
      intro s hop h
      exact ih _ (fun b hb => hop b (List.mem_cons_of_mem _ hb)) (stHas_step hc s op (fun b hb => hop b (by rw [hb]; exact List.mem_cons_self)) h)
  exact this ops _ hop (fun j y hy => by cases hy)

/-- The body never changes the mode. -/
def KeepsMode : CBody D → Prop
  | .ret _ => True
  | .arg k => KeepsMode k
  | .own u k => (∀ s, (u s).strict = s.strict) ∧ ∀ s, KeepsMode (k s)
  | .ask _ k => ∀ o, KeepsMode (k o)

theorem keeps_closed : Closed (KeepsMode (D := D)) fun k => ∀ o, KeepsMode (k o) :=
  ⟨fun _ h => h, fun _ _ s h => h.2 s, fun _ _ h => h, fun _ a h => h a⟩

theorem keeps_mode (c : Bool) (k : Bool → CBody D) (h : ∀ b, KeepsMode (k b)) : KeepsMode (mode c k) := by
  unfold mode
  split
  · exact ⟨fun _ => rfl, fun s => h _⟩
  · exact h _

theorem keeps_give {T : Type} (f : T → Val D) (t : Option T) : KeepsMode (give f t) := by cases t <;> trivial

theorem store_strict (k : Client.Kind) (l : List (Item D)) (s : Self D) : (store k l s).strict = s.strict := rfl
theorem remember_strict (id : Bytes) (s : Self D) : (remember id s).strict = s.strict := by unfold remember; split <;> rfl

theorem keeps_body (api : Api D) : KeepsMode (body api) := by
  cases api with
  | init info caps =>
    refine ⟨fun _ => rfl, fun _ o => ?_⟩
    cases o with
    | resp r =>
      dsimp only
      split
      · exact ⟨fun _ => rfl, fun _ => trivial⟩
      · trivial
    | threw => trivial
    | nul => trivial
  | callTool name args => intro o; trivial
  | getPrompt name args => intro o; trivial
  | readResource uri => intro o; trivial
  | readRange uri off len => intro o; trivial
  | subscribe uri => intro o; trivial
  | unsubscribe uri => intro o; trivial
  | complete a => intro o; exact keeps_mode _ _ fun b => keeps_give _ _
  | ping =>
    intro o
    refine keeps_mode _ _ fun b => ?_
    split <;> trivial
  | callToolTask name args ttl =>
    intro o
    refine keeps_mode _ _ fun b => ?_
    split
    · trivial
    · exact ⟨fun s => remember_strict _ s, fun _ => trivial⟩
  | getTask id => intro o; exact keeps_mode _ _ fun b => keeps_give _ _
  | cancelTask id => intro o; exact keeps_mode _ _ fun b => keeps_give _ _
  | taskResult id =>
    intro o
    dsimp only
    split
    · exact ⟨fun _ => rfl, fun _ => ⟨fun _ => rfl, fun _ => keeps_give _ _⟩⟩
    · exact keeps_give _ _
  | listTasks => intro o; exact keeps_mode _ _ fun b => keeps_give _ _
  | listTasksPaged c l => intro o; exact keeps_mode _ _ fun b => keeps_give _ _
  | list k =>
    refine ⟨fun _ => rfl, fun s => ?_⟩
    dsimp only
    split
    · trivial
    · intro o
      refine keeps_mode _ _ fun b => ?_
      split
      · trivial
      · exact ⟨fun s => store_strict _ _ s, fun _ => trivial⟩
  | listPaged k c l => intro o; exact keeps_mode _ _ fun b => keeps_give _ _

/-- The mode is the same in the client and in everything the calls have seen. -/
structure Moded (strict : Bool) (s : CSys D) : Prop where
  own : s.own.strict = strict
  saw : ∀ (i : Nat) (x : CCall D), s.calls[i]? = some x → ∀ s', Ev.saw s' ∈ x.path → s'.strict = strict
  keeps : ∀ (i : Nat) (x : CCall D), s.calls[i]? = some x → StHas KeepsMode (fun k => ∀ o, KeepsMode (k o)) x.st

theorem moded_step {strict : Bool} {s : CSys D} (h : Moded strict s) (op : COp D) (hop : Calm op) : Moded strict (s.step op) := by
  have hk := stHas_step keeps_closed s op (fun b hb => by subst hb; obtain ⟨api, rfl⟩ := hop; exact keeps_body api) h.keeps
  refine ⟨?_, ?_, hk⟩
  · unfold Sys.step
    split
    · exact h.own
    · cases op with
      | call b => dsimp only; split <;> exact h.own
      | go i =>
        dsimp only
        split
        · rename_i x hx
          have hkx := h.keeps i x hx
          unfold Sys.go
          split <;> (try split) <;> first
            | exact h.own
            | (rename_i u k hst _; rw [hst] at hkx; exact (hkx.1 s.own).trans h.own)
        · exact h.own
      | fill c a => dsimp only; split <;> exact h.own
      | drop i => dsimp only; split <;> (try split) <;> exact h.own
      | change u => dsimp only; split <;> first | exact (hop s.own).trans h.own | exact h.own
      | destroy => dsimp only; split <;> exact h.own
  · have hset : ∀ (i : Nat) (x z : CCall D), s.calls[i]? = some x → (∀ s', Ev.saw s' ∈ z.path → s'.strict = strict) →
        ∀ (j : Nat) (y : CCall D), (s.calls.set i z)[j]? = some y → ∀ s', Ev.saw s' ∈ y.path → s'.strict = strict := by
      intro i x z hi hz j y hy
      rcases get_set hi hy with ⟨_, rfl⟩ | ⟨_, hy⟩
      · exact hz
      · exact h.saw j y hy
    unfold Sys.step
    split
    · exact h.saw
    · cases op with
      | call b =>
        dsimp only
        split
        · intro j z hz
          rcases Nat.lt_or_ge j s.calls.length with hj | hj
          · rw [List.getElem?_append_left hj] at hz
            exact h.saw j z hz
          · rw [List.getElem?_append_right hj] at hz
            have : z = ⟨b, .run b, false, true, []⟩ := by
              cases hjj : j - s.calls.length with
              | zero => rw [hjj] at hz; exact (Option.some.inj hz).symm
              | succ n => rw [hjj] at hz; cases hz
            subst this
            intro s' hs'
            cases hs'
        · exact h.saw
      | go i =>
        dsimp only
        split
        · rename_i x hx
          have hsx := h.saw i x hx
          unfold Sys.go
          split <;> (try split) <;> first
            | exact h.saw
            | exact hset i x _ hx hsx
            | (refine hset i x _ hx fun s' hs' => ?_
               rcases List.mem_append.1 hs' with hs' | hs'
               · exact hsx s' hs'
               · simp at hs'
                 first | done | (subst hs'; exact h.own))
        · exact h.saw
      | fill c a => dsimp only; split <;> exact h.saw
      | drop i =>
        dsimp only
        split
        · rename_i x hx
          split
          · exact hset i x _ hx (h.saw i x hx)
          · exact h.saw
        · exact h.saw
      | change u => dsimp only; split <;> exact h.saw
      | destroy => dsimp only; split <;> exact h.saw

theorem moded_run (s0 : Self D) (ops : List (COp D)) (hops : ∀ op ∈ ops, Calm op) : Moded s0.strict ((Sys.init s0).run ops) := by
  have : ∀ (ops : List (COp D)) (s : CSys D), (∀ op ∈ ops, Calm op) → Moded s0.strict s → Moded s0.strict (s.run ops) := by
    intro ops
    induction ops with
    | nil => intro s _ h; exact h
    | cons op ops ih => intro s hops h; exact ih _ (fun o ho => hops o (List.mem_cons_of_mem _ ho)) (moded_step h op (hops op List.mem_cons_self))
  exact this ops _ hops ⟨rfl, fun i x hx => (by cases hx), fun i x hx => by cases hx⟩


/-! ### C102 -/

theorem listing_free (k : Client.Kind) (strict : Bool) (o : Outcome D) (h : hasResult o = false) : k.listing strict o = k.listing false o := by
  cases o with
  | threw => rfl
  | nul => rfl
  | resp r =>
    obtain ⟨i, res, err⟩ := r
    cases err <;> cases res <;> first | rfl | cases h

theorem strictCall_free {T : Type} (strict : Bool) (valid : JVal D → Bool) (parse : JVal D → T) (f b t : Bytes) (o : Outcome D) (h : hasResult o = false) :
    strictCall strict valid parse f b t o = strictCall false valid parse f b t o := by
  cases o with
  | threw => rfl
  | nul => rfl
  | resp r =>
    obtain ⟨i, res, err⟩ := r
    cases err <;> cases res <;> first | rfl | cases h

theorem ping_free (strict : Bool) (o : Outcome D) (h : hasResult o = false) : ping strict o = ping false o := by
  cases o with
  | threw => rfl
  | nul => rfl
  | resp r =>
    obtain ⟨i, res, err⟩ := r
    cases err <;> cases res <;> first | rfl | cases h

theorem complete_free (strict : Bool) (o : Outcome D) (h : hasValue o = false) : complete strict o = complete false o := by
  cases o with
  | threw => rfl
  | nul => rfl
  | resp r =>
    obtain ⟨i, res, err⟩ := r
    cases res <;> first | rfl | cases h

theorem taskResult_free (strict : Bool) (kind : Option Tasks.Kind) (o : Outcome D) (h : hasResult o = false) :
    taskResult strict kind o = taskResult false none o := by
  cases o with
  | threw => rfl
  | nul => rfl
  | resp r =>
    obtain ⟨i, res, err⟩ := r
    cases err <;> cases res <;> first | rfl | cases h

theorem listPaged_free {T : Type} (key : Bytes) (read : Validation.Obj D → T) (valid : JVal D → Bool) (strict : Bool) (o : Outcome D)
    (h : hasResult o = false) : Server.listPaged key read valid strict o = Server.listPaged key read valid false o := by
  cases o with
  | threw => rfl
  | nul => rfl
  | resp r =>
    obtain ⟨i, res, err⟩ := r
    cases err <;> cases res <;> first | rfl | cases h

theorem ends_mode {c : Bool} {k : Bool → CBody D} {evs : List (Ev (Self D) (Req D) (Outcome D))} {r : Option (Val D)} (h : Ends (mode c k) evs r) :
    (c = true ∧ ∃ s rest, evs = .saw s :: rest ∧ Ends (k s.strict) rest r) ∨ (c = false ∧ Ends (k false) evs r) := by
  unfold mode at h
  cases c with
  | true => rw [if_pos rfl] at h; exact .inl ⟨rfl, h⟩
  | false => rw [if_neg (by simp)] at h; exact .inr ⟨rfl, h⟩

theorem ends_give {T : Type} {f : T → Val D} {t : Option T} {evs : List (Ev (Self D) (Req D) (Outcome D))} {r : Option (Val D)}
    (h : Ends (give f t) evs r) : evs = [] ∧ r = t.map f := by
  cases t with
  | none => exact ⟨h.1, h.2.symm⟩
  | some t => exact ⟨h.1, h.2.symm⟩

/-- The calls that read the mode once and then only return. -/
theorem ends_simple {T : Type} {f : T → Val D} {c : Bool} {g : Bool → Option T} {strict : Bool}
    {evs : List (Ev (Self D) (Req D) (Outcome D))} {r : Option (Val D)} (h : Ends (mode c fun b => give f (g b)) evs r)
    (hs : ∀ s', Ev.saw s' ∈ evs → s'.strict = strict) (hf : c = false → g strict = g false) :
    sentOf evs = [] ∧ r = (g strict).map f := by
  rcases ends_mode h with ⟨_, s, rest, rfl, h'⟩ | ⟨hc, h'⟩
  · obtain ⟨rfl, rfl⟩ := ends_give h'
    rw [hs s (by simp)]
    exact ⟨rfl, rfl⟩
  · obtain ⟨rfl, rfl⟩ := ends_give h'
    rw [hf hc]
    exact ⟨rfl, rfl⟩

/-- What a finished call has seen, and what it gives. -/
def Told (strict : Bool) (api : Api D) (path : List (Ev (Self D) (Req D) (Outcome D))) (r : Option (Val D)) : Prop :=
  (∃ k d s', api = .list k ∧ Ev.saw s' ∈ path ∧ s'.cache.hit k = some d ∧ sentOf path = [] ∧ r = some (.items d)) ∨
    ∃ c o kind, sentOf path = [c] ∧ Ev.sent c (question api) ∈ path ∧ Ev.got c o ∈ path ∧ r = says strict kind api o ∧
      ∀ id, api = .taskResult id → hasResult o = true → ∃ s', Ev.saw s' ∈ path ∧ kind = s'.kinds id

theorem told_ask {strict : Bool} {api : Api D} {q : Req D} {k : Outcome D → CBody D} {evs : List (Ev (Self D) (Req D) (Outcome D))} {r : Option (Val D)}
    (h : Ends (.ask q k) evs r) (hq : q = question api) (hn : ∀ id, api ≠ .taskResult id)
    (hk : ∀ o rest, Ends (k o) rest r → (∀ s', Ev.saw s' ∈ rest → Ev.saw s' ∈ evs) → sentOf rest = [] ∧ r = says strict none api o) :
    Told strict api evs r := by
  obtain ⟨c, o, rest, rfl, h⟩ := h
  obtain ⟨h1, h2⟩ := hk o rest h fun s' hs' => by simp [hs']
  exact .inr ⟨c, o, none, by simp [sentOf, h1], by simp [hq], by simp, h2, fun id hid => absurd hid (hn id)⟩

theorem told (strict : Bool) (api : Api D) (path : List (Ev (Self D) (Req D) (Outcome D))) (r : Option (Val D)) (h : Ends (body api) path r)
    (hs : ∀ s', Ev.saw s' ∈ path → s'.strict = strict) : Told strict api path r := by
  cases api with
  | init info caps =>
    obtain ⟨s, rest, rfl, h⟩ := h
    obtain ⟨c, o, rest, rfl, h⟩ := h
    have : sentOf rest = [] ∧ r = says strict none (.init info caps) o := by
      cases o with
      | resp x =>
        obtain ⟨i, res, err⟩ := x
        cases err with
        | some e => obtain ⟨rfl, rfl⟩ := h; exact ⟨rfl, rfl⟩
        | none =>
          cases res with
          | none => obtain ⟨rfl, rfl⟩ := h; exact ⟨rfl, rfl⟩
          | some v => obtain ⟨s1, rest1, rfl, rfl, rfl⟩ := h; exact ⟨rfl, rfl⟩
      | threw => obtain ⟨rfl, rfl⟩ := h; exact ⟨rfl, rfl⟩
      | nul => obtain ⟨rfl, rfl⟩ := h; exact ⟨rfl, rfl⟩
    exact .inr ⟨c, o, none, by simp [sentOf, this.1], by simp [question], by simp, this.2, fun id hid => by cases hid⟩
  | callTool name args =>
    exact told_ask h rfl (by simp) fun o rest h _ => by obtain ⟨rfl, rfl⟩ := h; exact ⟨rfl, rfl⟩
  | getPrompt name args =>
    exact told_ask h rfl (by simp) fun o rest h _ => by obtain ⟨rfl, rfl⟩ := h; exact ⟨rfl, rfl⟩
  | readResource uri =>
    exact told_ask h rfl (by simp) fun o rest h _ => by obtain ⟨rfl, rfl⟩ := h; exact ⟨rfl, rfl⟩
  | readRange uri off len =>
    exact told_ask h (by cases off <;> cases len <;> rfl) (by simp) fun o rest h _ => by obtain ⟨rfl, rfl⟩ := h; exact ⟨rfl, rfl⟩
  | subscribe uri =>
    exact told_ask h (by cases uri <;> rfl) (by simp) fun o rest h _ => by obtain ⟨rfl, rfl⟩ := h; exact ⟨rfl, rfl⟩
  | unsubscribe uri =>
    exact told_ask h (by cases uri <;> rfl) (by simp) fun o rest h _ => by obtain ⟨rfl, rfl⟩ := h; exact ⟨rfl, rfl⟩
  | complete a =>
    exact told_ask h (by obtain ⟨_, _, _, ctx⟩ := a; cases ctx <;> rfl) (by simp) fun o rest h hr => ends_simple h (fun s' hs' => hs s' (hr s' hs')) (complete_free strict o)
  | ping =>
    refine told_ask h rfl (by simp) fun o rest h hr => ?_
    have h' : Ends (mode (hasResult o) fun b => give (fun _ : Unit => (Val.nothing : Val D)) (if ping b o then some () else none)) rest r := by
      have : (fun b => give (fun _ : Unit => (Val.nothing : Val D)) (if ping b o then some () else none)) =
          fun b => (if ping b o then .ret (some .nothing) else .ret none : CBody D) := by
        funext b
        split <;> rfl
      rw [this]
      exact h
    obtain ⟨h1, h2⟩ := ends_simple (strict := strict) h' (fun s' hs' => hs s' (hr s' hs')) (fun hc => by rw [ping_free strict o hc])
    refine ⟨h1, h2.trans ?_⟩
    simp only [says]
    split <;> rfl
  | callToolTask name args ttl =>
    refine told_ask h (by cases ttl <;> rfl) (by simp) fun o rest h hr => ?_
    have fin : ∀ (b : Bool) (evs : List (Ev (Self D) (Req D) (Outcome D))),
        Ends (match callToolTask b [] o with
          | .error _ => .ret none
          | .ok (t, m) => .own (remember t.taskId) fun _ => .ret (some (.created t m)) : CBody D) evs r →
        sentOf evs = [] ∧ r = (callToolTask b [] o).toOption.map fun p => Val.created p.1 p.2 := by
      intro b evs h
      split at h
      · rename_i e he
        obtain ⟨rfl, rfl⟩ := h
        rw [he]
        exact ⟨rfl, rfl⟩
      · rename_i t m he
        obtain ⟨s, rest, rfl, rfl, rfl⟩ := h
        rw [he]
        exact ⟨rfl, rfl⟩
    rcases ends_mode h with ⟨_, s, rest', rfl, h'⟩ | ⟨hc, h'⟩
    · have := fin _ _ h'
      rw [hs s (hr s (by simp))] at this
      exact ⟨by simpa [sentOf] using this.1, this.2⟩
    · have := fin _ _ h'
      refine ⟨this.1, this.2.trans ?_⟩
      show _ = Option.map _ (callToolTask strict [] o).toOption
      unfold callToolTask
      rw [strictCall_free strict _ _ _ _ _ o hc]
  | getTask id =>
    exact told_ask h rfl (by simp) fun o rest h hr =>
      ends_simple (g := fun b => (getTask b [] o).toOption) h (fun s' hs' => hs s' (hr s' hs')) fun hc => by
        unfold getTask; rw [strictCall_free strict _ _ _ _ _ o hc]
  | cancelTask id =>
    exact told_ask h rfl (by simp) fun o rest h hr =>
      ends_simple (g := fun b => (cancelTask b [] o).toOption) h (fun s' hs' => hs s' (hr s' hs')) fun hc => by
        unfold cancelTask; rw [strictCall_free strict _ _ _ _ _ o hc]
  | taskResult id =>
    obtain ⟨c, o, rest, rfl, h⟩ := h
    right
    dsimp only at h
    by_cases hres : hasResult o = true
    · rw [if_pos hres] at h
      obtain ⟨s, rest, rfl, s', rest', rfl, h⟩ := h
      obtain ⟨rfl, rfl⟩ := ends_give h
      refine ⟨c, o, s.kinds id, rfl, by simp [question, taskParams], by simp, ?_, fun id' hid _ => ⟨s, by simp, by cases hid; rfl⟩⟩
      rw [hs s' (by simp)]
      rfl
    · rw [if_neg hres] at h
      obtain ⟨rfl, rfl⟩ := ends_give h
      refine ⟨c, o, none, rfl, by simp [question, taskParams], by simp, ?_, fun id' hid hr' => absurd hr' hres⟩
      show _ = Option.map _ (taskResult strict none o)
      rw [taskResult_free strict none o (by simpa using hres)]
  | listTasks =>
    exact told_ask h rfl (by simp) fun o rest h hr =>
      ends_simple (g := fun b => (listTasks b [] o).toOption) h (fun s' hs' => hs s' (hr s' hs')) fun hc => by
        unfold listTasks; rw [strictCall_free strict _ _ _ _ _ o hc]
  | listTasksPaged c l =>
    exact told_ask h (by rw [pageParams_eq]; rfl) (by simp) fun o rest h hr =>
      ends_simple (g := fun b => (listTasks b [] o).toOption) h (fun s' hs' => hs s' (hr s' hs')) fun hc => by
        unfold listTasks; rw [strictCall_free strict _ _ _ _ _ o hc]
  | list k =>
    obtain ⟨s, rest, rfl, h⟩ := h
    dsimp only at h
    split at h
    · rename_i d hd
      obtain ⟨rfl, rfl⟩ := h
      exact .inl ⟨k, d, s, rfl, by simp, hd, rfl, rfl⟩
    · have fin : ∀ (b : Bool) (o : Outcome D) (evs : List (Ev (Self D) (Req D) (Outcome D))),
          Ends (match k.listing b o with
            | none => .ret none
            | some l => .own (store k l) fun _ => .ret (some (.items l)) : CBody D) evs r →
          sentOf evs = [] ∧ r = (k.listing b o).map Val.items := by
        intro b o evs h
        split at h
        · rename_i he
          obtain ⟨rfl, rfl⟩ := h
          rw [he]
          exact ⟨rfl, rfl⟩
        · rename_i l he
          obtain ⟨s, rest, rfl, rfl, rfl⟩ := h
          rw [he]
          exact ⟨rfl, rfl⟩
      have : Told strict (.list k) rest r := by
        refine told_ask h (by cases k <;> rfl) (by simp) fun o rest' h hr => ?_
        rcases ends_mode h with ⟨_, s1, rest1, rfl, h'⟩ | ⟨hc, h'⟩
        · have := fin _ _ _ h'
          rw [hs s1 (List.mem_cons_of_mem _ (hr s1 (by simp)))] at this
          exact ⟨by simpa [sentOf] using this.1, this.2⟩
        · have := fin _ _ _ h'
          refine ⟨this.1, this.2.trans ?_⟩
          show _ = Option.map _ (k.listing strict o)
          rw [listing_free k strict o hc]
      rcases this with ⟨k', d, s', h1, h2, h3, h4, h5⟩ | ⟨c, o, kind, h1, h2, h3, h4, h5⟩
      · exact .inl ⟨k', d, s', h1, List.mem_cons_of_mem _ h2, h3, h4, h5⟩
      · exact .inr ⟨c, o, kind, h1, List.mem_cons_of_mem _ h2, List.mem_cons_of_mem _ h3, h4, fun id hid => by cases hid⟩
  | listPaged k c l =>
    exact told_ask h (by rw [pageParams_eq]; cases k <;> rfl) (by simp) fun o rest h hr =>
      ends_simple (g := fun b => Server.listPaged k.key k.item k.valid b o) h (fun s' hs' => hs s' (hr s' hs')) fun hc =>
        listPaged_free _ _ _ strict o hc

theorem flat_nodup {S Q A R : Type} {l : List (Await.Call S Q A R)} (h : (l.flatMap fun x => sentOf x.path).Nodup) {i j : Nat} {x y : Await.Call S Q A R}
    (hi : l[i]? = some x) (hj : l[j]? = some y) {c : Nat} (hx : c ∈ sentOf x.path) (hy : c ∈ sentOf y.path) : j = i := by
  induction l generalizing i j with
  | nil => cases hi
  | cons z l ih =>
    rw [List.flatMap_cons, List.nodup_append] at h
    obtain ⟨_, h2, h3⟩ := h
    have later : ∀ (n : Nat) (w : Await.Call S Q A R), l[n]? = some w → c ∈ sentOf w.path → c ∈ l.flatMap fun x => sentOf x.path := fun n w hw hc =>
      List.mem_flatMap.2 ⟨w, List.mem_of_getElem? hw, hc⟩
    cases i with
    | zero =>
      cases j with
      | zero => rfl
      | succ j => cases hi; exact absurd rfl (h3 c hx c (later j y hj hy))
    | succ i =>
      cases j with
      | zero => cases hj; exact absurd rfl (h3 c hy c (later i x hi hx))
      | succ j => exact congrArg _ (ih h2 (i := i) (j := j) hi hj)

/-- Whatever the threads do and whenever the futures end, a call that has given its result got it in one of two ways: it is a listing that
was in the cache and sent nothing; or it sent exactly its one request, which no other call has, the transport has ended the future of that
request, and the result is what this answer says. -/
theorem C102_outcome (s0 : Self D) (ops : List (COp D)) (hops : ∀ op ∈ ops, Calm op) (i : Nat) (x : CCall D)
    (hx : ((Sys.init s0).run ops).calls[i]? = some x) (api : Api D) (hp : x.prog = body api) (r : Option (Val D)) (hr : x.st = .over r) :
    (∃ k d s', api = .list k ∧ Ev.saw s' ∈ x.path ∧ s'.cache.hit k = some d ∧ sentOf x.path = [] ∧ r = some (.items d)) ∨
      ∃ c o kind, sentOf x.path = [c] ∧ Ev.sent c (question api) ∈ x.path ∧
        ((Sys.init s0).run ops).cells[c]? = some (some o) ∧ r = says s0.strict kind api o ∧
        (∀ id, api = .taskResult id → hasResult o = true → ∃ s', Ev.saw s' ∈ x.path ∧ kind = s'.kinds id) ∧
        ∀ (j : Nat) (y : CCall D), ((Sys.init s0).run ops).calls[j]? = some y → c ∈ sentOf y.path → j = i := by
  have hinv := inv_run s0 ops
  have hm := moded_run s0 ops hops
  have htr := hinv.tr i x hx
  have ht := htr.tail
  rw [hr, hp] at ht
  rcases told s0.strict api x.path r ht (hm.saw i x hx) with h | ⟨c, o, kind, h1, h2, h3, h4, h5⟩
  · exact .inl h
  · refine .inr ⟨c, o, kind, h1, h2, htr.got c o h3, h4, h5, fun j y hy hc => ?_⟩
    exact flat_nodup (hinv.perm.nodup_iff.2 List.nodup_range) hx hy (by rw [h1]; simp) hc

/-- The result of a call comes once: what it is never changes, and no further request is sent for it. -/
theorem C102_once (s0 : Self D) (ops more : List (COp D)) (i : Nat) (x : CCall D) (hx : ((Sys.init s0).run ops).calls[i]? = some x)
    (r : Option (Val D)) (hr : x.st = .over r) :
    ∃ y : CCall D, ((Sys.init s0).run (ops ++ more)).calls[i]? = some y ∧ y.st = .over r ∧ y.path = x.path := by
  rw [run_append]
  obtain ⟨y, h1, h2, _, h4⟩ := over_run more _ i x r hx hr
  exact ⟨y, h1, h2, h4⟩

/-- After a request the body ends within five steps and sends nothing more. -/
def Brief {S Q A R : Type} : Body S Q A R → Prop
  | .ret _ => True
  | .arg k => Brief k
  | .own _ k => ∀ s, Brief (k s)
  | .ask _ k => ∀ a, Within 5 (k a)

theorem within_brief {S Q A R : Type} {b : Body S Q A R} : ∀ {n : Nat}, Within n b → Brief b := by
  induction b with
  | ret r => intro n _; trivial
  | arg k ih => intro n h; exact ih h.2
  | own u k ih => intro n h s; exact ih s (h.2 s)
  | ask q k ih => intro n h; exact h.elim

theorem brief_closed {S Q A R : Type} : Closed (Brief (S := S) (Q := Q) (A := A) (R := R)) fun k => ∀ a, Within 5 (k a) :=
  ⟨fun _ h => h, fun _ _ s h => h s, fun _ _ h => h, fun _ a h => within_brief (h a)⟩

theorem within_give {T : Type} (f : T → Val D) (t : Option T) (n : Nat) : Within (n + 1) (give f t) := by
  cases t <;> exact Nat.succ_le_succ (Nat.zero_le _)

theorem within_mode (c : Bool) (k : Bool → CBody D) (n : Nat) (h : ∀ b, Within n (k b)) : Within (n + 1) (mode c k) := by
  unfold mode
  split
  · exact ⟨by omega, fun s => h _⟩
  · exact (h _).mono (by omega)

theorem brief_body (api : Api D) : Brief (body api) := by
  have r1 : ∀ (n : Nat) (r : Option (Val D)), Within (n + 1) (.ret r : CBody D) := fun n r => Nat.succ_le_succ (Nat.zero_le _)
  cases api with
  | init info caps =>
    intro _ o
    cases o with
    | resp r =>
      dsimp only
      split
      · exact ⟨by decide, fun _ => r1 _ _⟩
      · exact r1 _ _
    | threw => exact r1 _ _
    | nul => exact r1 _ _
  | callTool name args => intro o; exact r1 _ _
  | getPrompt name args => intro o; exact r1 _ _
  | readResource uri => intro o; exact r1 _ _
  | readRange uri off len => intro o; exact r1 _ _
  | subscribe uri => intro o; exact r1 _ _
  | unsubscribe uri => intro o; exact r1 _ _
  | complete a => intro o; exact within_mode _ _ 4 fun b => within_give _ _ _
  | ping =>
    intro o
    refine within_mode _ _ 4 fun b => ?_
    split <;> exact r1 _ _
  | callToolTask name args ttl =>
    intro o
    refine within_mode _ _ 4 fun b => ?_
    split
    · exact r1 _ _
    · exact ⟨by decide, fun _ => r1 _ _⟩
  | getTask id => intro o; exact within_mode _ _ 4 fun b => within_give _ _ _
  | cancelTask id => intro o; exact within_mode _ _ 4 fun b => within_give _ _ _
  | taskResult id =>
    intro o
    dsimp only
    split
    · exact ⟨by decide, by decide, fun _ => ⟨by decide, fun _ => within_give _ _ 1⟩⟩
    · exact within_give _ _ _
  | listTasks => intro o; exact within_mode _ _ 4 fun b => within_give _ _ _
  | listTasksPaged c l => intro o; exact within_mode _ _ 4 fun b => within_give _ _ _
  | list k =>
    intro s
    dsimp only
    split
    · trivial
    · intro o
      refine within_mode _ _ 4 fun b => ?_
      split
      · exact r1 _ _
      · exact ⟨by decide, fun _ => r1 _ _⟩
  | listPaged k c l => intro o; exact within_mode _ _ 4 fun b => within_give _ _ _

/-- Once the transport has ended the future of its request, a call gives its result after six further steps of its thread, whatever
the other threads do in between (unless something it needs is gone, see C103 and C104). -/
theorem C102_finishes (s0 : Self D) (ops more : List (COp D)) (hops : ∀ op ∈ ops, Calm op) (i c : Nat) (x : CCall D)
    (k : Outcome D → CBody D) (hx : ((Sys.init s0).run ops).calls[i]? = some x) (hst : x.st = .check c k ∨ x.st = .wait c k)
    (o : Outcome D) (ho : ((Sys.init s0).run ops).cells[c]? = some (some o)) (hm : 6 ≤ goes i more) :
    ((Sys.init s0).run (ops ++ more)).ub = true ∨
      ∃ (y : CCall D) (r : Option (Val D)), ((Sys.init s0).run (ops ++ more)).calls[i]? = some y ∧ y.st = .over r := by
  rw [run_append]
  have hb := stHas_run brief_closed s0 ops (fun b hb => by obtain ⟨api, rfl⟩ := hops _ hb; exact brief_body api) i x hx
  have hw : Within 5 (k o) := by rcases hst with hst | hst <;> rw [hst] at hb <;> exact hb o
  exact answered_run more _ i 5 c k x o hx hst ho hw hm


/-! A client with two calls under way whose answers come in the other order, the second before its `await_ready`. -/

def plainSelf : Self Empty := ⟨true, fun _ => none, Cache.init true⟩
def okResp (n : Int) (v : JVal Empty) : Outcome Empty := .resp ⟨.int n, some v, none⟩
def twoCalls : List (COp Empty) :=
  [.call (body (.callTool (lit "a") .null)), .go 0, .go 0, .go 0, .call (body .ping), .go 1, .fill 1 (okResp 1 (.obj [])), .fill 0 (okResp 0 (.str (lit "x"))),
   .go 1, .go 1, .go 1, .go 0, .go 0]

example : (∀ op ∈ twoCalls, Calm op) ∧
    (match ((Sys.init plainSelf).run twoCalls).calls with
      | [⟨_, .over (some (.json (.str t))), true, _, _⟩, ⟨_, .over (some .nothing), true, _, _⟩] => t == lit "x"
      | _ => false) = true := by
  refine ⟨?_, by decide +kernel⟩
  simp only [twoCalls, List.forall_mem_cons, Calm]
  simp
  exact ⟨⟨_, rfl⟩, ⟨_, rfl⟩⟩

/-- The hypotheses of `C102_finishes`: a call that waits, with its future ended. -/
example : (match ((Sys.init plainSelf).run (twoCalls.take 8)).calls with
      | ⟨_, .wait 0 _, true, _, _⟩ :: ⟨_, .check 1 _, false, _, _⟩ :: [] => true
      | _ => false) = true ∧ (((Sys.init plainSelf).run (twoCalls.take 8)).cells.all Option.isSome) = true := by
  decide +kernel

end Verif
