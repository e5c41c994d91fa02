/-!
Model of the threads of a server around `registryMutex` (src/mcp/Server.cpp 1109, a `std::mutex`, which its holder may not lock again).

Every function of the server that reads or writes the registered tools, resources, templates and prompts, or the set of subscribed uris, locks
this mutex with a `std::lock_guard`. All but two release it before a handler of the user runs: the two are `handlePromptsGet`
(1369-1394, the guard of 1377 lives until the return) and `coGetPrompt` (2140-2156, the guard of 2142). Locking a `std::mutex` twice on one thread is
undefined by the standard and blocks for ever with the usual implementations; the model takes the second.

What is simplified:

* a handler is the list of what it does to its server, `Stmt`; the rest of its work (and waiting for the future a tool handler returns, sending a
  notification, 2802-2804) is a step `work` that always ends. A handler that throws is a handler whose list ends there: the guards are released on the way out;
* what stands under a name is found by `reg`; the resolution of a uri against the templates (335-352) happens under the same guard and is not
  repeated here: a template is a resource under the uris it matches;
* the set of subscribed uris is not kept, only the flag `resourcesSubscribed`: after `resources/unsubscribe` the flag is whatever the set makes it (1873), here
  an arbitrary Boolean given with the request;
* a tool called as a task (877-918) runs its handler on a thread of its own: that is a further thread of the model whose program is the handler.
-/

namespace Verif.Lock

/-- The kinds of registered things that have a handler (tools 834-838, resources and templates 325-354, prompts 1377-1382). -/
inductive Kind where
  | tool | resource | prompt
  deriving DecidableEq

/-- Functions of the server a handler or an application thread may call which use the registry and run no handler: `Register…`/`Unregister…` (2786-2912,
3224-3282), `ListTools` and `ListResourceTemplates` (2960-2970, 3284-3295), `NotifyResourceUpdated` (2199-2221). `C` names pieces of user code. -/
inductive Use (N C : Type) where
  | register (k : Kind) (n : N) (c : C)
  | unregister (k : Kind) (n : N)
  | list
  | updated

/-- The requests by what they do with the registry: `tools/call`, `resources/read` and `prompts/get` of a name (handlers of 834, 327 and 1377), the four listings
(589, 615, 673, 744), `resources/subscribe` with and without a uri (1838-1854), `resources/unsubscribe` (1856-1878), and the requests that do not touch it (`ping`,
`initialize`, those refused for their parameters, …). -/
inductive Req (N : Type) where
  | get (k : Kind) (n : N)
  | list
  | subscribe (uri : Bool)
  | unsubscribe (left : Bool)
  | free

/-- A statement of user code or of a thread that serves requests: work that leaves the server alone, a use of the registry, a local `CallTool`, `ReadResource` or
`GetPrompt` (1950-1974, 2119-2156), or serving request `id` to the point where its answer is handed to the transport. -/
inductive Stmt (N C : Type) where
  | work
  | use (u : Use N C)
  | call (k : Kind) (n : N)
  | serve (id : Nat) (r : Req N)

/-- The atomic acts of a thread. -/
inductive Act (N C : Type) where
  | stmt (s : Stmt N C)
  | acq
  | rel
  | put (k : Kind) (n : N) (c : Option C)
  | look (k : Kind) (n : N)
  | flag (b : Bool)
  | answer (id : Nat)

/-- What serving a request does up to the answer. -/
def Req.acts {N C : Type} : Req N → List (Act N C)
  | .get k n => [.acq, .look k n]
  | .list => [.acq, .rel]
  | .subscribe true => [.flag true, .acq, .rel]
  | .subscribe false => [.flag true]
  | .unsubscribe left => [.acq, .rel, .flag left]
  | .free => []

/-- What a statement does, given the flag `resourcesSubscribed` (loaded without the mutex, 2202). -/
def Stmt.acts {N C : Type} (subs : Bool) : Stmt N C → List (Act N C)
  | .work => []
  | .use (.register k n c) => [.acq, .put k n (some c), .rel]
  | .use (.unregister k n) => [.acq, .put k n none, .rel]
  | .use .list => [.acq, .rel]
  | .use .updated => if subs then [.acq, .rel] else []
  | .call k n => [.acq, .look k n]
  | .serve id r => r.acts ++ [.answer id]

/-- The server: who holds the mutex, what is registered, the flag, the remaining acts of every thread, the requests answered so far. -/
structure Sys (N C : Type) where
  holder : Option Nat
  reg : Kind → N → Option C
  subs : Bool
  threads : List (List (Act N C))
  answered : List Nat

/-- A server that has been set up and on which no thread works yet. -/
def Sys.init {N C : Type} (reg : Kind → N → Option C) : Sys N C := ⟨none, reg, false, [], []⟩

/-- What remains for a thread that looked up a handler under the mutex: for tools and resources the guard is released and then the handler runs (834-848 and 926,
327-354 with 356 ff., 1953-1963, 2121-2133), for prompts the handler runs and then the guard is released (1377-1394, 2142-2155). -/
def found {N C : Type} (body : C → List (Stmt N C)) (k : Kind) (c : Option C) (rest : List (Act N C)) : List (Act N C) :=
  match c with
  | none => .rel :: rest
  | some c =>
    if k = .prompt then (body c).map .stmt ++ .rel :: rest
    else .rel :: ((body c).map .stmt ++ rest)

/-- Writing the registry at one name. -/
def write {N C : Type} [DecidableEq N] (reg : Kind → N → Option C) (k : Kind) (n : N) (c : Option C) : Kind → N → Option C :=
  fun k' n' => if k' = k ∧ n' = n then c else reg k' n'

/-- Thread `i` does its act `a` and has `rest` left; nothing when it has to wait for the mutex. -/
def Sys.exec {N C : Type} [DecidableEq N] (body : C → List (Stmt N C)) (s : Sys N C) (i : Nat) (a : Act N C) (rest : List (Act N C)) : Option (Sys N C) :=
  match a with
  | .stmt x => some { s with threads := s.threads.set i (x.acts s.subs ++ rest) }
  | .acq => if s.holder = none then some { s with holder := some i, threads := s.threads.set i rest } else none
  | .rel => some { s with holder := none, threads := s.threads.set i rest }
  | .put k n c => some { s with reg := write s.reg k n c, threads := s.threads.set i rest }
  | .look k n => some { s with threads := s.threads.set i (found body k (s.reg k n) rest) }
  | .flag b => some { s with subs := b, threads := s.threads.set i rest }
  | .answer id => some { s with answered := id :: s.answered, threads := s.threads.set i rest }

/-- What may happen: a thread starts with a program, or thread `i` is scheduled for one act. -/
inductive Op (N C : Type) where
  | start (prog : List (Stmt N C))
  | go (i : Nat)

def Sys.step {N C : Type} [DecidableEq N] (body : C → List (Stmt N C)) (s : Sys N C) : Op N C → Sys N C
  | .start prog => { s with threads := s.threads ++ [prog.map .stmt] }
  | .go i =>
    match s.threads[i]? with
    | some (a :: rest) => (s.exec body i a rest).getD s
    | _ => s

def Sys.run {N C : Type} [DecidableEq N] (body : C → List (Stmt N C)) (s : Sys N C) : List (Op N C) → Sys N C
  | [] => s
  | op :: ops => (s.step body op).run body ops

end Verif.Lock
