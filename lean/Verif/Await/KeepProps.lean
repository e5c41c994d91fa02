import Verif.Await.Props

/-!
C102, further: what one call leaves behind in the client for another. A task created by a call is remembered, so that a later
`GetTaskResult` checks its result; a listing that was given is found again in the cache.
-/

namespace Verif

open Client Validation Await
open Server hiding Ends

variable {D : Type}

/-! ### Tasks are remembered -/

/-- The tasks remembered in the first client are remembered in the second. -/
def More (s s' : Self D) : Prop := ∀ id, s.kinds id = some Tasks.Kind.toolCall → s'.kinds id = some Tasks.Kind.toolCall

/-- Only calls of the client are made, and nothing changes its mode or makes it forget a task. -/
def Steady : COp D → Prop
  | .call b => ∃ api, b = body api
  | .change u => (∀ s, (u s).strict = s.strict) ∧ ∀ s, More s (u s)
  | _ => True

theorem Steady.calm {op : COp D} (h : Steady op) : Calm op := by
  cases op <;> first | exact h | exact h.1

theorem More.refl (s : Self D) : More s s := fun _ h => h

theorem more_store (k : Client.Kind) (l : List (Item D)) (s : Self D) : More s (store k l s) := fun _ h => h

theorem more_remember (id : Bytes) (s : Self D) : More s (remember id s) := by
  intro j h
  unfold remember
  split
  · exact h
  · dsimp only
    split
    · rfl
    · exact h

/-- The body makes the client forget no task. -/
def Grows : CBody D → Prop
  | .ret _ => True
  | .arg k => Grows k
  | .own u k => (∀ s, More s (u s)) ∧ ∀ s, Grows (k s)
  | .ask _ k => ∀ o, Grows (k o)

theorem grows_closed : Closed (Grows (D := D)) fun k => ∀ o, Grows (k o) :=
  ⟨fun _ h => h, fun _ _ s h => h.2 s, fun _ _ h => h, fun _ a h => h a⟩

theorem grows_mode (c : Bool) (k : Bool → CBody D) (h : ∀ b, Grows (k b)) : Grows (mode c k) := by
  unfold mode
  split
  · exact ⟨More.refl, fun s => h _⟩
  · exact h _

theorem grows_give {T : Type} (f : T → Val D) (t : Option T) : Grows (give f t) := by cases t <;> trivial

theorem grows_body (api : Api D) : Grows (body api) := by
  cases api with
  | init info caps =>
    refine ⟨More.refl, fun _ o => ?_⟩
    cases o with
    | resp r =>
      dsimp only
      split
      · exact ⟨More.refl, fun _ => trivial⟩
      · trivial
    | threw => trivial
    | nul => trivial
  | callTool name args => intro o; trivial
  | getPrompt name args => intro o; trivial
  | readResource uri => intro o; trivial
  | readRange uri off len => intro o; trivial
  | subscribe uri => intro o; trivial
  | unsubscribe uri => intro o; trivial
  | complete a => intro o; exact grows_mode _ _ fun b => grows_give _ _
  | ping =>
    intro o
    refine grows_mode _ _ fun b => ?_
    split <;> trivial
  | callToolTask name args ttl =>
    intro o
    refine grows_mode _ _ fun b => ?_
    split
    · trivial
    · exact ⟨fun s => more_remember _ s, fun _ => trivial⟩
  | getTask id => intro o; exact grows_mode _ _ fun b => grows_give _ _
  | cancelTask id => intro o; exact grows_mode _ _ fun b => grows_give _ _
  | taskResult id =>
    intro o
    dsimp only
    split
    · exact ⟨More.refl, fun _ => ⟨More.refl, fun _ => grows_give _ _⟩⟩
    · exact grows_give _ _
  | listTasks => intro o; exact grows_mode _ _ fun b => grows_give _ _
  | listTasksPaged c l => intro o; exact grows_mode _ _ fun b => grows_give _ _
  | list k =>
    refine ⟨More.refl, fun s => ?_⟩
    dsimp only
    split
    · trivial
    · intro o
      refine grows_mode _ _ fun b => ?_
      split
      · trivial
      · exact ⟨fun s => more_store _ _ s, fun _ => trivial⟩
  | listPaged k c l => intro o; exact grows_mode _ _ fun b => grows_give _ _

/-- What a call has given when it has given a task: the client remembers it. -/
def Known (s : Self D) : Option (Val D) → Prop
  | some (.created t _) => t.taskId ≠ [] → s.kinds t.taskId = some Tasks.Kind.toolCall
  | _ => True

theorem Known.mono {s s' : Self D} (h : More s s') : ∀ {r : Option (Val D)}, Known s r → Known s' r
  | none, _ => trivial
  | some (.json _), _ | some .nothing, _ | some (.completion _), _ | some (.task _), _ | some (.taskPage _), _ | some (.tasks _), _
  | some (.items _), _ | some (.page _), _ | some (.caps _), _ => trivial
  | some (.created t _), hk => fun hne => h _ (hk hne)

/-- The body ends with `Known`, from this client on. -/
def Tells : Self D → CBody D → Prop
  | s, .ret r => Known s r
  | s, .arg k => Tells s k
  | _, .own u k => ∀ s, Tells (u s) (k s)
  | _, .ask _ k => ∀ o s, Tells s (k o)

theorem Tells.mono {s s' : Self D} (h : More s s') {b : CBody D} : Tells s b → Tells s' b := by
  induction b with
  | ret r => exact Known.mono h
  | arg k ih => exact ih
  | own u k _ => exact fun h => h
  | ask q k _ => exact fun h => h

theorem tells_mode (c : Bool) (k : Bool → CBody D) (h : ∀ b s, Tells s (k b)) (s : Self D) : Tells s (mode c k) := by
  unfold mode
  split
  · exact fun s => h _ _
  · exact h _ _

theorem tells_give {T : Type} (f : T → Val D) (t : Option T) (hf : ∀ t s, Known s (some (f t))) (s : Self D) : Tells s (give f t) := by
  cases t with
  | none => trivial
  | some t => exact hf t s

theorem tells_body (api : Api D) (s : Self D) : Tells s (body api) := by
  cases api with
  | init info caps =>
    intro _ o s
    cases o with
    | resp r =>
      dsimp only
      split
      · exact fun _ => trivial
      · trivial
    | threw => trivial
    | nul => trivial
  | callTool name args => intro o s; trivial
  | getPrompt name args => intro o s; trivial
  | readResource uri => intro o s; trivial
  | readRange uri off len => intro o s; trivial
  | subscribe uri => intro o s; trivial
  | unsubscribe uri => intro o s; trivial
  | complete a => intro o; exact tells_mode _ _ fun b => tells_give _ _ fun _ _ => trivial
  | ping =>
    intro o
    refine tells_mode _ _ fun b s => ?_
    split <;> trivial
  | callToolTask name args ttl =>
    intro o
    refine tells_mode _ _ fun b s => ?_
    split
    · trivial
    · intro s hne
      unfold remember
      rw [if_neg hne]
      exact if_pos rfl
  | getTask id => intro o; exact tells_mode _ _ fun b => tells_give _ _ fun _ _ => trivial
  | cancelTask id => intro o; exact tells_mode _ _ fun b => tells_give _ _ fun _ _ => trivial
  | taskResult id =>
    intro o s
    dsimp only
    split
    · exact fun _ s => tells_give Val.json _ (fun _ _ => trivial) s
    · exact tells_give Val.json _ (fun _ _ => trivial) s
  | listTasks => intro o; exact tells_mode _ _ fun b => tells_give _ _ fun _ _ => trivial
  | listTasksPaged c l => intro o; exact tells_mode _ _ fun b => tells_give _ _ fun _ _ => trivial
  | list k =>
    intro s
    dsimp only
    split
    · trivial
    · intro o
      refine tells_mode _ _ fun b s => ?_
      split
      · trivial
      · exact fun _ => trivial
  | listPaged k c l => intro o; exact tells_mode _ _ fun b => tells_give _ _ fun _ _ => trivial

/-- `Tells` where a call stands. -/
def StTells (s : Self D) : St (Self D) (Req D) (Outcome D) (Option (Val D)) → Prop
  | .run b => Tells s b
  | .check _ k | .wait _ k => ∀ o s, Tells s (k o)
  | .over r => Known s r

theorem StTells.mono {s s' : Self D} (h : More s s') : ∀ {st : St (Self D) (Req D) (Outcome D) (Option (Val D))}, StTells s st → StTells s' st
  | .run _, ht => Tells.mono h ht
  | .check _ _, ht => ht
  | .wait _ _, ht => ht
  | .over _, ht => Known.mono h ht

/-- The tasks the calls have given are remembered, and the calls from the `n`th on have seen only clients that remember the tasks of `P`. -/
structure Minds (P : Self D → Prop) (n : Nat) (s : CSys D) : Prop where
  own : P s.own
  saw : ∀ (i : Nat) (x : CCall D), n ≤ i → s.calls[i]? = some x → ∀ s', Ev.saw s' ∈ x.path → P s'
  tells : ∀ (i : Nat) (x : CCall D), s.calls[i]? = some x → StTells s.own x.st
  grows : ∀ (i : Nat) (x : CCall D), s.calls[i]? = some x → StHas Grows (fun k => ∀ o, Grows (k o)) x.st

theorem minds_go {P : Self D → Prop} (hP : ∀ s s', More s s' → P s → P s') {n : Nat} {s : CSys D} (h : Minds P n s) (i : Nat) (x : CCall D)
    (hi : s.calls[i]? = some x) : Minds P n (s.go i x) := by
  have hg := stHas_go grows_closed s i x hi h.grows
  have hset : ∀ (z : CCall D) (own : Self D), More s.own own → StTells own z.st → (n ≤ i → ∀ s', Ev.saw s' ∈ z.path → P s') →
      (P own ∧ (∀ (j : Nat) (y : CCall D), n ≤ j → (s.calls.set i z)[j]? = some y → ∀ s', Ev.saw s' ∈ y.path → P s') ∧
        ∀ (j : Nat) (y : CCall D), (s.calls.set i z)[j]? = some y → StTells own y.st) := by
    intro z own hm ht hz
    refine ⟨hP _ _ hm h.own, fun j y hj hy => ?_, fun j y hy => ?_⟩
    · rcases get_set hi hy with ⟨rfl, rfl⟩ | ⟨_, hy⟩
      · exact hz hj
      · exact h.saw j y hj hy
    · rcases get_set hi hy with ⟨_, rfl⟩ | ⟨_, hy⟩
      · exact ht
      · exact StTells.mono hm (h.tells j y hy)
  have hxt := h.tells i x hi
  have hxg := h.grows i x hi
  have hxs := h.saw i x
  have app : ∀ e : Ev (Self D) (Req D) (Outcome D), (∀ s', e = .saw s' → s' = s.own) → n ≤ i → ∀ s', Ev.saw s' ∈ x.path ++ [e] → P s' := by
    intro e he hn s' hs'
    rcases List.mem_append.1 hs' with hs' | hs'
    · exact hxs hn hi s' hs'
    · rw [he s' (List.mem_singleton.1 hs').symm]; exact h.own
  unfold Sys.go at hg ⊢
  split at hg
  · rename_i r hst
    rw [hst] at hxt
    obtain ⟨a, b, c⟩ := hset { x with st := .over r, back := true } s.own (More.refl _) hxt (fun hn => hxs hn hi)
    exact ⟨a, b, c, hg⟩
  · rename_i k hst
    rw [hst] at hxt
    split at hg
    · rename_i ha
      rw [if_pos ha]
      obtain ⟨a, b, c⟩ := hset { x with st := .run k } s.own (More.refl _) hxt (fun hn => hxs hn hi)
      exact ⟨a, b, c, hg⟩
    · rename_i ha
      rw [if_neg ha]
      exact ⟨h.own, h.saw, h.tells, hg⟩
  · rename_i u k hst
    rw [hst] at hxt hxg
    split at hg
    · rename_i ha
      rw [if_pos ha]
      obtain ⟨a, b, c⟩ := hset { x with st := .run (k s.own), path := x.path ++ [.saw s.own] } (u s.own) (hxg.1 s.own) (hxt s.own)
        (app _ fun s' e => by cases e; rfl)
      exact ⟨a, b, c, hg⟩
    · rename_i ha
      rw [if_neg ha]
      exact ⟨h.own, h.saw, h.tells, hg⟩
  · rename_i q k hst
    rw [hst] at hxt
    split at hg
    · rename_i ha
      rw [if_pos ha]
      obtain ⟨a, b, c⟩ := hset { x with st := .check s.cells.length k, path := x.path ++ [.sent s.cells.length q] } s.own (More.refl _) hxt
        (app _ fun s' e => by cases e)
      exact ⟨a, b, c, hg⟩
    · rename_i ha
      rw [if_neg ha]
      exact ⟨h.own, h.saw, h.tells, hg⟩
  · rename_i c k hst
    rw [hst] at hxt
    split at hg
    · rename_i a' ha
      obtain ⟨a, b, c⟩ := hset { x with st := .run (k a'), path := x.path ++ [.got c a'] } s.own (More.refl _) (hxt _ _)
        (app _ fun s' e => by cases e)
      exact ⟨a, b, c, hg⟩
    · obtain ⟨a, b, c⟩ := hset { x with st := .wait c k, back := true } s.own (More.refl _) hxt (fun hn => hxs hn hi)
      exact ⟨a, b, c, hg⟩
  · rename_i c k hst
    rw [hst] at hxt
    split at hg
    · rename_i a' ha
      obtain ⟨a, b, c⟩ := hset { x with st := .run (k a'), path := x.path ++ [.got c a'] } s.own (More.refl _) (hxt _ _)
        (app _ fun s' e => by cases e)
      exact ⟨a, b, c, hg⟩
    · exact h
  · exact h

theorem minds_step {P : Self D → Prop} (hP : ∀ s s', More s s' → P s → P s') {n : Nat} {s : CSys D} (h : Minds P n s) (op : COp D) (hop : Steady op) :
    Minds P n (s.step op) := by
  have hg := stHas_step grows_closed s op (fun b hb => by subst hb; obtain ⟨api, rfl⟩ := hop; exact grows_body api) h.grows
  by_cases hub : s.ub = true
  · rw [step_ub s op hub] at hg ⊢
    exact h
  unfold Sys.step at hg ⊢
  rw [if_neg hub] at hg ⊢
  cases op with
  | call b =>
    dsimp only at hg ⊢
    split at hg
    · rename_i ha
      rw [if_pos ha]
      obtain ⟨api, rfl⟩ := hop
      have last : ∀ (j : Nat) (y : CCall D), (s.calls ++ [⟨body api, .run (body api), false, true, []⟩])[j]? = some y →
          s.calls[j]? = some y ∨ y = ⟨body api, .run (body api), false, true, []⟩ := by
        intro j y hy
        rcases Nat.lt_or_ge j s.calls.length with hj | hj
        · rw [List.getElem?_append_left hj] at hy
          exact .inl hy
        · rw [List.getElem?_append_right hj] at hy
          cases hjj : j - s.calls.length with
          | zero => rw [hjj] at hy; exact .inr (Option.some.inj hy).symm
          | succ n => rw [hjj] at hy; cases hy
      refine ⟨h.own, fun j y hj hy => ?_, fun j y hy => ?_, hg⟩
      · rcases last j y hy with hy | rfl
        · exact h.saw j y hj hy
        · intro s' hs'; cases hs'
      · rcases last j y hy with hy | rfl
        · exact h.tells j y hy
        · exact tells_body api s.own
    · rename_i ha
      rw [if_neg ha]
      exact h
  | go i =>
    dsimp only at hg ⊢
    split
    · rename_i x hx; exact minds_go hP h i x hx
    · exact h
  | fill c a =>
    dsimp only at hg ⊢
    split
    · exact ⟨h.own, h.saw, h.tells, h.grows⟩
    · exact h
  | drop i =>
    dsimp only at hg ⊢
    split
    · rename_i x hx
      split
      · refine ⟨h.own, fun j y hj hy => ?_, fun j y hy => ?_, fun j y hy => ?_⟩
        · rcases get_set hx hy with ⟨rfl, rfl⟩ | ⟨_, hy⟩
          · exact h.saw j x hj hx
          · exact h.saw j y hj hy
        · rcases get_set hx hy with ⟨_, rfl⟩ | ⟨_, hy⟩
          · exact h.tells i x hx
          · exact h.tells j y hy
        · rcases get_set hx hy with ⟨_, rfl⟩ | ⟨_, hy⟩
          · exact h.grows i x hx
          · exact h.grows j y hy
      · exact h
    · exact h
  | change u =>
    dsimp only at hg ⊢
    split
    · exact ⟨hP _ _ (hop.2 s.own) h.own, h.saw, fun i x hx => StTells.mono (hop.2 s.own) (h.tells i x hx), h.grows⟩
    · exact h
  | destroy =>
    dsimp only at hg ⊢
    split
    · exact ⟨h.own, h.saw, h.tells, h.grows⟩
    · exact h

theorem minds_run {P : Self D → Prop} (hP : ∀ s s', More s s' → P s → P s') {n : Nat} (ops : List (COp D)) :
    ∀ (s : CSys D), (∀ op ∈ ops, Steady op) → Minds P n s → Minds P n (s.run ops) := by
  induction ops with
  | nil => intro s _ h; exact h
  | cons op ops ih => intro s hops h; exact ih _ (fun o ho => hops o (List.mem_cons_of_mem _ ho)) (minds_step hP h op (hops op List.mem_cons_self))

/-- In strict mode, once a call has given a task, the result of every later `GetTaskResult` for that task is checked against the shape of a
tool result: the call throws when it has another shape, and gives it unchanged otherwise. -/
theorem C102_kind (s0 : Self D) (ops more : List (COp D)) (hstrict : s0.strict = true) (hops : ∀ op ∈ ops ++ more, Steady op) (j : Nat) (y : CCall D)
    (hy : ((Sys.init s0).run ops).calls[j]? = some y) (t : Tasks.Task) (m : Option (JVal D)) (hyr : y.st = .over (some (.created t m)))
    (hid : t.taskId ≠ []) (i : Nat) (x : CCall D) (hi : ((Sys.init s0).run ops).calls.length ≤ i)
    (hx : ((Sys.init s0).run (ops ++ more)).calls[i]? = some x) (hp : x.prog = body (.taskResult t.taskId)) (r : Option (Val D)) (hr : x.st = .over r)
    (c : Nat) (hc : c ∈ sentOf x.path) (rid : RpcId) (v : JVal D)
    (hv : ((Sys.init s0).run (ops ++ more)).cells[c]? = some (some (.resp ⟨rid, some v, none⟩))) :
    r = if validateCallToolResult v then some (.json v) else none := by
  have h1 : Minds (fun _ => True) 0 ((Sys.init s0).run ops) :=
    minds_run (fun _ _ _ _ => trivial) ops _ (fun o ho => hops o (List.mem_append_left _ ho))
      ⟨trivial, fun i x _ hx => (by cases hx), fun i x hx => (by cases hx), fun i x hx => by cases hx⟩
  have h2 := h1.tells j y hy
  rw [hyr] at h2
  have hP : ∀ s s' : Self D, More s s' → s.kinds t.taskId = some Tasks.Kind.toolCall → s'.kinds t.taskId = some Tasks.Kind.toolCall := fun s s' hm => hm _
  have h3 : Minds (fun s => s.kinds t.taskId = some Tasks.Kind.toolCall) ((Sys.init s0).run ops).calls.length ((Sys.init s0).run (ops ++ more)) := by
    rw [run_append]
    refine minds_run hP more _ (fun o ho => hops o (List.mem_append_right _ ho)) ⟨h2 hid, fun i x hi hx => ?_, h1.tells, h1.grows⟩
    rw [List.getElem?_eq_none hi] at hx
    cases hx
  rcases C102_outcome s0 (ops ++ more) (fun o ho => (hops o ho).calm) i x hx _ hp r hr with ⟨k, _, _, h, _⟩ | ⟨c', o, kind, g1, _, g3, g4, g5, _⟩
  · cases h
  · rw [g1] at hc
    obtain rfl := List.mem_singleton.1 hc
    rw [hv] at g3
    cases g3
    obtain ⟨s', hs', rfl⟩ := g5 _ rfl rfl
    rw [h3.saw i x hi hx s' hs', hstrict] at g4
    rw [g4]
    show ((if (true && !validFor .toolCall v) = true then none else some v : Option (JVal D))).map Val.json = _
    show ((if (true && !validateCallToolResult v) = true then none else some v : Option (JVal D))).map Val.json = _
    cases validateCallToolResult v <;> rfl

/-- Thread `n` does `m` steps. -/
def steps (n : Nat) : Nat → List (COp D)
  | 0 => []
  | m + 1 => .go n :: steps n m

def taskAnswer : JVal Empty :=
  .obj [(lit "task", .obj [(lit "taskId", .str (lit "t")), (lit "status", .str (lit "working")), (lit "createdAt", .str (lit "a")),
    (lit "lastUpdatedAt", .str (lit "a")), (lit "ttl", .null)])]
def taskThen : List (COp Empty) :=
  .call (body (.callToolTask (lit "a") .null none)) :: steps 0 2 ++ .fill 0 (okResp 0 taskAnswer) :: steps 0 4
def resultAsked (v : JVal Empty) : List (COp Empty) :=
  .call (body (.taskResult (lit "t"))) :: steps 1 2 ++ .fill 1 (okResp 1 v) :: steps 1 5

/-- A task is made, and its result, which is no tool result, is refused; a tool result is given. -/
example : (match ((Sys.init plainSelf).run taskThen).calls with
      | [⟨_, .over (some (.created t _)), _, _, _⟩] => t.taskId == lit "t"
      | _ => false) = true ∧
    (match ((Sys.init plainSelf).run (taskThen ++ resultAsked (.int 1))).calls with
      | [_, ⟨_, .over none, _, _, [_, .got _ _, _, _]⟩] => true
      | _ => false) = true ∧
    (match ((Sys.init plainSelf).run (taskThen ++ resultAsked (.obj [(lit "content", .arr [])]))).calls with
      | [_, ⟨_, .over (some (.json (.obj _))), _, _, _⟩] => true
      | _ => false) = true := by decide +kernel

/-! ### Listings are found again -/

/-- Time passes, in nanoseconds. -/
def pass (d : Nat) : COp D := .change fun s => { s with cache := { s.cache with now := s.cache.now + d } }

theorem set_last {T : Type} (l : List T) (x y : T) : (l ++ [x]).set l.length y = l ++ [y] := by
  rw [List.set_append_right _ _ (Nat.le_refl _), Nat.sub_self]
  rfl

theorem get_last {T : Type} (l : List T) (x : T) : (l ++ [x])[l.length]? = some x := by
  rw [List.getElem?_append_right (Nat.le_refl _), Nat.sub_self]
  rfl

theorem go_last {S Q A R : Type} (own : S) (cells : List (Option A)) (cs : List (Await.Call S Q A R)) (x : Await.Call S Q A R) :
    (⟨own, true, cells, cs ++ [x], false⟩ : Sys S Q A R).step (.go cs.length) = (⟨own, true, cells, cs ++ [x], false⟩ : Sys S Q A R).go cs.length x := by
  simp only [Sys.step, Bool.false_eq_true, if_false, get_last]

theorem steps_over (own : Self D) (cells : List (Option (Outcome D))) (cs : List (CCall D)) (x : CCall D) (r : Option (Val D)) (h : x.st = .over r) :
    ∀ m, (⟨own, true, cells, cs ++ [x], false⟩ : CSys D).run (steps cs.length m) = ⟨own, true, cells, cs ++ [x], false⟩ := by
  intro m
  induction m with
  | zero => rfl
  | succ m ih =>
    show ((⟨own, true, cells, cs ++ [x], false⟩ : CSys D).step (.go cs.length)).run _ = _
    rw [go_last]
    have : (⟨own, true, cells, cs ++ [x], false⟩ : CSys D).go cs.length x = ⟨own, true, cells, cs ++ [x], false⟩ := by
      simp only [Sys.go, h]
    rw [this]
    exact ih

/-- What a listing leaves behind: the items, stored at this time. -/
theorem list_runs (own : Self D) (cells : List (Option (Outcome D))) (cs : List (CCall D)) (k : Client.Kind) (o : Outcome D) (l : List (Item D))
    (hl : k.listing own.strict o = some l) (hmiss : own.cache.hit k = none) :
    ∃ x : CCall D, x.st = .over (some (.items l)) ∧
      (⟨own, true, cells, cs, false⟩ : CSys D).run (.call (body (.list k)) :: steps cs.length 2 ++ .fill cells.length o :: steps cs.length 6) =
        ⟨store k l own, true, cells ++ [some o], cs ++ [x], false⟩ := by
  have hmode : hasResult o = false → k.listing false o = some l := fun h => by rw [← listing_free k own.strict o h]; exact hl
  rw [List.cons_append, run_cons]
  simp only [steps, List.cons_append, List.nil_append]
  have e1 : (⟨own, true, cells, cs, false⟩ : CSys D).step (.call (body (.list k))) =
      ⟨own, true, cells, cs ++ [⟨body (.list k), .run (body (.list k)), false, true, []⟩], false⟩ := rfl
  rw [e1, run_cons, go_last]
  simp only [Sys.go, body, if_true, set_last, hmiss, id, List.nil_append]
  rw [run_cons, go_last]
  simp only [Sys.go, if_true, set_last]
  rw [run_cons]
  have e2 : ∀ x : CCall D, (⟨own, true, cells ++ [none], cs ++ [x], false⟩ : CSys D).step (.fill cells.length o) =
      ⟨own, true, cells ++ [some o], cs ++ [x], false⟩ := by
    intro x
    simp only [Sys.step, Bool.false_eq_true, if_false, get_last, set_last]
  rw [e2, run_cons, go_last]
  simp only [Sys.go, get_last, set_last]
  cases hr : hasResult o with
  | true =>
    rw [run_cons, go_last]
    simp only [Sys.go, afterList, mode, hr, if_true, set_last, hl, id]
    rw [run_cons, go_last]
    simp only [Sys.go, if_true, set_last]
    rw [run_cons, go_last]
    simp only [Sys.go, set_last]
    refine ⟨_, ?_, steps_over _ _ _ _ (some (.items l)) ?_ 2⟩ <;> rfl
  | false =>
    rw [run_cons, go_last]
    simp only [Sys.go, afterList, mode, hr, Bool.false_eq_true, if_false, if_true, set_last, hmode hr]
    rw [run_cons, go_last]
    simp only [Sys.go, set_last]
    refine ⟨_, ?_, steps_over _ _ _ _ (some (.items l)) ?_ 3⟩ <;> rfl

/-- Whatever has happened before, with the cache on: a listing whose answer gave these items is, while its time has not run out, given
again at once and without a request. -/
theorem C102_cached (s : CSys D) (halive : s.alive = true) (hub : s.ub = false) (k : Client.Kind) (o : Outcome D) (l : List (Item D))
    (hl : k.listing s.own.strict o = some l) (hmiss : s.own.cache.hit k = none) (ttl : Nat) (httl : s.own.cache.ttl = some ttl) (hpos : 0 < ttl)
    (hmax : ttl < 2 ^ 63) (d : Nat) (hd : d < (ttl + 1) * 1000000) :
    ∃ x y : CCall D, x.st = .over (some (.items l)) ∧ y.st = .over (some (.items l)) ∧ sentOf y.path = [] ∧
      (s.run (.call (body (.list k)) :: steps s.calls.length 2 ++ .fill s.cells.length o :: steps s.calls.length 6 ++
        pass d :: .call (body (.list k)) :: steps (s.calls.length + 1) 2)).calls = s.calls ++ [x, y] := by
  obtain ⟨own, alive, cells, cs, ub⟩ := s
  cases halive
  cases hub
  dsimp only at *
  obtain ⟨x, hx, e⟩ := list_runs own cells cs k o l hl hmiss
  rw [run_append, e, run_cons]
  have e1 : (⟨store k l own, true, cells ++ [some o], cs ++ [x], false⟩ : CSys D).step (pass d) =
      ⟨{ store k l own with cache := { (store k l own).cache with now := own.cache.now + d } }, true, cells ++ [some o], cs ++ [x], false⟩ := rfl
  have hon : enabled own.cache.ttl = true := by rw [httl]; simpa [enabled] using hpos
  have hslot : (store k l own).cache.slots k = ⟨l, own.cache.now, true⟩ := by
    simp [store, Cache.stored, hon]
  have hhit : ({ (store k l own).cache with now := own.cache.now + d } : Cache D).hit k = some l := by
    have hfresh : fresh (own.cache.now + d) own.cache.now own.cache.ttl = true := by
      rw [httl]
      simp only [fresh, Nat.add_sub_cancel_left, decide_eq_true_eq, toI64]
      have : d / 1000000 ≤ ttl := by omega
      omega
    unfold Cache.hit
    rw [hslot]
    show (if (enabled own.cache.ttl && true && fresh (own.cache.now + d) own.cache.now own.cache.ttl) = true then some l else none) = some l
    rw [hon, hfresh]
    rfl
  rw [e1, run_cons]
  have e2 : ∀ own' : Self D, (⟨own', true, cells ++ [some o], cs ++ [x], false⟩ : CSys D).step (.call (body (.list k))) =
      ⟨own', true, cells ++ [some o], (cs ++ [x]) ++ [⟨body (.list k), .run (body (.list k)), false, true, []⟩], false⟩ := fun _ => rfl
  rw [e2]
  have hlen : cs.length + 1 = (cs ++ [x]).length := by simp
  rw [hlen]
  simp only [steps]
  rw [run_cons, go_last]
  simp only [Sys.go, body, if_true, set_last, hhit, List.nil_append]
  rw [run_cons, go_last]
  simp only [Sys.go, set_last]
  refine ⟨x, _, hx, ?_, ?_, List.append_assoc cs [x] [_]⟩ <;> rfl

example : let s : CSys Empty := Sys.init ⟨true, fun _ => none, { Cache.init true with ttl := some 1000 }⟩
    s.own.cache.hit .tools = none ∧
    ((Client.Kind.tools.listing true (okResp 0 (.obj [(lit "tools", .arr [])]))).map List.length) = some 0 ∧
    (s.run (.call (body (.list .tools)) :: steps 0 2 ++ .fill 0 (okResp 0 (.obj [(lit "tools", .arr [])])) :: steps 0 6 ++
        pass 500000000 :: .call (body (.list .tools)) :: steps 1 2)).calls.length = 2 := by decide +kernel

end Verif
