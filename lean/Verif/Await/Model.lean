import Verif.Client.Calls
import Verif.Client.Cache

/-!
Model of the coroutines behind the calls of the client: `mcp::async::Task` (include/mcp/async/Task.h 22-74), the awaiter of a
`std::future` (include/mcp/async/FutureAwaitable.h 21-82), and the bodies of the calls in src/mcp/Client.cpp 1113-2080 as trees of
their effects.

A call runs on the thread of its caller up to the first `co_await` whose future is not ready; then the caller gets its future back and a
detached thread waits for the awaited future and goes on with the body. The body holds its parameters by reference, and `this`. One step
of the model is one effect of one body; the other threads may do anything between two of them. Reading a parameter whose object is gone,
or the client after it was destroyed, is undefined behaviour and stops the model.

Simplified: a `co_await` of the future of an inner coroutine (`coListTasks`, 1282-1287) is one body with the inner one; a copy of the
parameters into the request and the log calls before it are one access to them; the client has a transport (a call without one
dereferences a null pointer); a second `set_value` on one promise of the transport has no effect. What the transport does between
`SendRequest` and the end of its future is arbitrary here. A thread that cannot be started (`std::system_error` from `std::thread`) is
not modelled.
-/

namespace Verif.Await

/-- The body of a coroutine as the tree of its effects: `S` is the state of the client, `Q` the requests, `A` how an awaited future
ends, `R` how the coroutine ends. -/
inductive Body (S Q A R : Type) where
  /-- `co_return`, or an exception that leaves the body (`unhandled_exception`, Task.h 32): the promise of the task is set. -/
  | ret (r : R)
  /-- The parameters are read. -/
  | arg (k : Body S Q A R)
  /-- The members of the client are read and written, through `this`. -/
  | own (u : S → S) (k : S → Body S Q A R)
  /-- `co_await makeFutureAwaitable(this->transport->SendRequest(q))`. -/
  | ask (q : Q) (k : A → Body S Q A R)

/-- Where a body stands. -/
inductive St (S Q A R : Type) where
  /-- A thread runs it. -/
  | run (b : Body S Q A R)
  /-- The request is sent, `await_ready` (FutureAwaitable.h 26-29) is still to come. -/
  | check (c : Nat) (k : A → Body S Q A R)
  /-- Suspended; the thread of `await_suspend` (31-43) waits for the future of request `c`. -/
  | wait (c : Nat) (k : A → Body S Q A R)
  /-- The promise of the task is set. -/
  | over (r : R)

/-- What a body has seen and done, in order (for the statements only). -/
inductive Ev (S Q A : Type) where
  | saw (s : S)
  | sent (c : Nat) (q : Q)
  | got (c : Nat) (a : A)

/-- A call that was made. -/
structure Call (S Q A R : Type) where
  /-- The body it started with. -/
  prog : Body S Q A R
  st : St S Q A R
  /-- Whether the caller has its future back. -/
  back : Bool
  /-- Whether the objects the parameters refer to exist. -/
  args : Bool
  path : List (Ev S Q A)

/-- The client with its calls; `cells` are the futures of its requests, in the order of sending, with what they ended with. -/
structure Sys (S Q A R : Type) where
  own : S
  alive : Bool
  cells : List (Option A)
  calls : List (Call S Q A R)
  ub : Bool

variable {S Q A R : Type}

def Sys.init (s : S) : Sys S Q A R := ⟨s, true, [], [], false⟩

inductive Op (S Q A R : Type) where
  /-- The application makes a call. -/
  | call (b : Body S Q A R)
  /-- The thread that has call `i` does the next thing. -/
  | go (i : Nat)
  /-- The transport ends the future of request `c`. -/
  | fill (c : Nat) (a : A)
  /-- The caller of call `i`, having its future back, gives up the objects it passed. -/
  | drop (i : Nat)
  /-- Anything else that changes the client: a notification that arrives, a setter. -/
  | change (u : S → S)
  /-- The client is destroyed, while no thread is inside a function of it (2087-2089: the destructor waits for nothing). -/
  | destroy

/-- One effect of the body of a call. -/
def Sys.go (s : Sys S Q A R) (i : Nat) (x : Call S Q A R) : Sys S Q A R :=
  match x.st with
  | .run (.ret r) => { s with calls := s.calls.set i { x with st := .over r, back := true } }
  | .run (.arg k) => if x.args then { s with calls := s.calls.set i { x with st := .run k } } else { s with ub := true }
  | .run (.own u k) =>
    if s.alive then
      { s with own := u s.own, calls := s.calls.set i { x with st := .run (k s.own), path := x.path ++ [.saw s.own] } }
    else { s with ub := true }
  | .run (.ask q k) =>
    if s.alive then
      { s with cells := s.cells ++ [none],
               calls := s.calls.set i { x with st := .check s.cells.length k, path := x.path ++ [.sent s.cells.length q] } }
    else { s with ub := true }
  | .check c k =>
    match s.cells[c]? with
    | some (some a) => { s with calls := s.calls.set i { x with st := .run (k a), path := x.path ++ [.got c a] } }
    | _ => { s with calls := s.calls.set i { x with st := .wait c k, back := true } }
  | .wait c k =>
    match s.cells[c]? with
    | some (some a) => { s with calls := s.calls.set i { x with st := .run (k a), path := x.path ++ [.got c a] } }
    | _ => s
  | .over _ => s

def Sys.step (s : Sys S Q A R) (op : Op S Q A R) : Sys S Q A R :=
  if s.ub then s else
  match op with
  | .call b => if s.alive then { s with calls := s.calls ++ [⟨b, .run b, false, true, []⟩] } else s
  | .go i => match s.calls[i]? with | some x => s.go i x | none => s
  | .fill c a => match s.cells[c]? with | some none => { s with cells := s.cells.set c (some a) } | _ => s
  | .drop i =>
    match s.calls[i]? with
    | some x => if x.back then { s with calls := s.calls.set i { x with args := false } } else s
    | none => s
  | .change u => if s.alive then { s with own := u s.own } else s
  | .destroy => if s.calls.all (·.back) then { s with alive := false } else s

def Sys.run (s : Sys S Q A R) (ops : List (Op S Q A R)) : Sys S Q A R := ops.foldl Sys.step s

/-! ### The calls of the client -/

open Client Validation Server

variable {D : Type}

/-- The members of `Client::Impl` the calls use: `validationMode`, `outboundTaskKinds`, and the caches with their clock. -/
structure Self (D : Type) where
  strict : Bool
  kinds : Bytes → Option Tasks.Kind
  cache : Cache D

/-- A request: its method and parameters. -/
structure Req (D : Type) where
  method : Bytes
  params : Option (JVal D)

/-- What a call can give. -/
inductive Val (D : Type) where
  | json (v : JVal D)
  | nothing
  | completion (c : Completion)
  | created (t : Tasks.Task) (m : Option (JVal D))
  | task (t : Tasks.Task)
  | taskPage (p : List Tasks.Task × Option Bytes)
  | tasks (l : List Tasks.Task)
  | items (l : List (Item D))
  | page (p : List (Item D) × Option Bytes)
  /-- The capabilities read from this result (`parseServerCapabilities`, 384-458), or default-constructed ones. -/
  | caps (v : Option (JVal D))

/-- A body of the client; `none` is an exception. -/
abbrev CBody (D : Type) := Body (Self D) (Req D) (Outcome D) (Option (Val D))

/-- `response && !response->IsError() && response->result.has_value()`. -/
def hasResult : Outcome D → Bool
  | .resp r => r.error.isNone && r.result.isSome
  | _ => false

/-- `response && response->result.has_value()`, 1168. -/
def hasValue : Outcome D → Bool
  | .resp r => r.result.isSome
  | _ => false

/-- `this->validationMode` is read only on the path that has a result to validate. -/
def mode (c : Bool) (k : Bool → CBody D) : CBody D := if c then .own id fun s => k s.strict else k false

/-- The end of the calls that have nothing to do but to return. -/
def give {T : Type} (f : T → Val D) : Option T → CBody D
  | none => .ret none
  | some t => .ret (some (f t))

/-- The method of a listing. -/
def _root_.Verif.Client.Kind.method : Client.Kind → Bytes
  | .tools => lit "tools/list"
  | .resources => lit "resources/list"
  | .templates => lit "resources/templates/list"
  | .prompts => lit "prompts/list"

/-- The elements of a paged listing, 1560-1571 and its siblings. -/
def _root_.Verif.Client.Kind.item : Client.Kind → Validation.Obj D → Item D
  | .tools => fun m => .tool (Items.readTool m)
  | .resources => fun m => .resource (Items.readResourceItem m)
  | .templates => fun m => .template (Items.readTemplate m)
  | .prompts => fun m => .prompt (Items.readPrompt m)

/-- The parameters of the paged listings, 1525-1534; none if there is no field. -/
def pageParams (cursor : Option Bytes) (limit : Option Int) : Option (JVal D) :=
  match optField (lit "cursor") (cursor.map .str) ++ optField (lit "limit") ((limit.filter (0 < ·)).map .int) with
  | [] => none
  | m => some (.obj m)

/-- The store into the cache, 1512-1517. -/
def store (k : Client.Kind) (l : List (Item D)) (s : Self D) : Self D := { s with cache := { s.cache with slots := s.cache.stored k l } }

/-- `rememberOutboundTask`, 566-572. -/
def remember (id : Bytes) (s : Self D) : Self D :=
  if id = [] then s else { s with kinds := fun j => if j = id then some .toolCall else s.kinds j }

/-- The calls with their arguments. -/
inductive Api (D : Type) where
  | init (info caps : JVal D)
  | callTool (name : Bytes) (args : JVal D)
  | getPrompt (name : Bytes) (args : JVal D)
  | readResource (uri : Bytes)
  | readRange (uri : Bytes) (offset length : Option Int)
  | subscribe (uri : Option Bytes)
  | unsubscribe (uri : Option Bytes)
  | complete (a : CompleteArgs D)
  | ping
  | callToolTask (name : Bytes) (args : JVal D) (ttl : Option Int)
  | getTask (id : Bytes)
  | cancelTask (id : Bytes)
  | taskResult (id : Bytes)
  | listTasks
  | listTasksPaged (cursor : Option Bytes) (limit : Option Int)
  | list (k : Client.Kind)
  | listPaged (k : Client.Kind) (cursor : Option Bytes) (limit : Option Int)

/-- What follows the `co_await` in `coListTools` and its siblings, 1472-1518. -/
def afterList (k : Client.Kind) (o : Outcome D) : CBody D :=
  mode (hasResult o) fun strict =>
    match k.listing strict o with
    | none => .ret none
    | some l => .own (store k l) fun _ => .ret (some (.items l))

/-- The body of a call. The lines of Client.cpp are with each. -/
def body : Api D → CBody D
  -- 1113-1147
  | .init info caps => .arg <| .own id fun _ =>
      .ask ⟨lit "initialize", some (.obj [(lit "protocolVersion", .str (lit "2025-11-25")), (lit "capabilities", caps), (lit "clientInfo", info)])⟩ fun o =>
        match o with
        | .resp r => if hasResult o then .own id fun _ => .ret (some (.caps r.result)) else .ret (some (.caps none))
        | _ => .ret (some (.caps none))
  -- 1374-1398
  | .callTool name args => .arg <| .ask ⟨lit "tools/call", some (callParams name args)⟩ fun o => .ret (some (.json (replyValue o)))
  -- 2055-2080
  | .getPrompt name args => .arg <| .ask ⟨lit "prompts/get", some (callParams name args)⟩ fun o => .ret (some (.json (replyValue o)))
  -- 2003-2024
  | .readResource uri => .arg <| .ask ⟨lit "resources/read", some (readParams uri none none)⟩ fun o => .ret (some (.json (replyValue o)))
  -- 2026-2053
  | .readRange uri off len => .arg <| .ask ⟨lit "resources/read", some (readParams uri off len)⟩ fun o => .ret (some (.json (replyValue o)))
  -- 1400-1415
  | .subscribe uri => .arg <| .ask ⟨lit "resources/subscribe", some (.obj (optField (lit "uri") (uri.map .str)))⟩ fun _ => .ret (some .nothing)
  -- 1417-1432
  | .unsubscribe uri => .arg <| .ask ⟨lit "resources/unsubscribe", some (.obj (optField (lit "uri") (uri.map .str)))⟩ fun _ => .ret (some .nothing)
  -- 1149-1208
  | .complete a => .arg <| .ask ⟨lit "completion/complete", some (completeParams a)⟩ fun o =>
      mode (hasValue o) fun strict => give .completion (complete strict o)
  -- 1210-1229
  | .ping => .ask ⟨lit "ping", none⟩ fun o => mode (hasResult o) fun strict => if ping strict o then .ret (some .nothing) else .ret none
  -- 1231-1257
  | .callToolTask name args ttl => .arg <| .ask ⟨lit "tools/call", some (taskCallParams name args ttl)⟩ fun o =>
      mode (hasResult o) fun strict =>
        match callToolTask strict [] o with
        | .error _ => .ret none
        | .ok (t, m) => .own (remember t.taskId) fun _ => .ret (some (.created t m))
  -- 1259-1280
  | .getTask id => .arg <| .ask ⟨lit "tasks/get", some (taskParams id)⟩ fun o =>
      mode (hasResult o) fun strict => give .task (getTask strict [] o).toOption
  -- 1351-1372
  | .cancelTask id => .arg <| .ask ⟨lit "tasks/cancel", some (taskParams id)⟩ fun o =>
      mode (hasResult o) fun strict => give .task (cancelTask strict [] o).toOption
  -- 1320-1349; `taskId` is read again after the `co_await`, 1338
  | .taskResult id => .arg <| .ask ⟨lit "tasks/result", some (taskParams id)⟩ fun o =>
      if hasResult o then .arg <| .own _root_.id fun s => .own _root_.id fun s' => give .json (taskResult s'.strict (s.kinds id) o)
      else give .json (taskResult false none o)
  -- 1282-1287
  | .listTasks => .ask ⟨lit "tasks/list", none⟩ fun o =>
      mode (hasResult o) fun strict => give (fun p => .tasks p.1) (listTasks strict [] o).toOption
  -- 1289-1318
  | .listTasksPaged c l => .arg <| .ask ⟨lit "tasks/list", pageParams c l⟩ fun o =>
      mode (hasResult o) fun strict => give .taskPage (listTasks strict [] o).toOption
  -- 1452-1519, 1589-1655, 1725-1791, 1864-1933
  | .list k => .own id fun s =>
      match s.cache.hit k with
      | some d => .ret (some (.items d))
      | none => .ask ⟨k.method, none⟩ (afterList k)
  -- 1521-1587, 1657-1723, 1793-1862, 1935-2001
  | .listPaged k c l => .arg <| .ask ⟨k.method, pageParams c l⟩ fun o =>
      mode (hasResult o) fun strict => give .page (Server.listPaged k.key k.item k.valid strict o)

end Verif.Await
