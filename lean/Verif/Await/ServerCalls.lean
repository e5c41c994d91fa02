import Verif.Await.Model
import Verif.Client.Requests

/-!
The coroutines behind the calls of the server to its client, src/mcp/Server.cpp 1976-2117 (tasks) and 2331-2731 (roots, sampling,
elicitation, ping), as bodies of the machine of Await/Model. What they make of the answers is in Client/Requests and Client/Calls.

Unlike the client, the server checks its transport in some calls and not in others; without one `this->transport->SendRequest` is a call
through a null pointer, here the outcome `crash`. The transport is set by `Start` (1506) and never taken away. The members are read one by
one, so what they say may change between two reads.

Simplified as in Await/Model. `coListTasks` (2027-2032) is one body with `coListTasksPaged`. That `Start` with another transport destroys
the one a call is using is not modelled, nor that `clientCapabilities` is written without a lock by `initialize` (1264-1337).
-/

namespace Verif.Await

open Client Validation Server
open Caps hiding Obj

variable {D : Type}

/-- The members of `Server::Impl` the calls use. -/
structure SSelf (D : Type) where
  transport : Bool
  caps : ClientCaps D
  strict : Bool
  kinds : Bytes → Option Tasks.Kind

/-- A request: the id the caller gave, if any; the method; the parameters. -/
structure SReq (D : Type) where
  id : Option Bytes
  method : Bytes
  params : Option (JVal D)

/-- What a call can give. -/
inductive SVal (D : Type) where
  | json (v : JVal D)
  | nothing
  | roots (l : List (Root D))
  | elicited (r : ElicitRes D)
  | created (t : Tasks.Task) (m : Option (JVal D))
  | task (t : Tasks.Task)
  | taskPage (p : List Tasks.Task × Option Bytes)
  | tasks (l : List Tasks.Task)

/-- How a call ends: with a value, with an exception, or in a call through a null pointer. -/
inductive SOut (D : Type) where
  | val (v : SVal D)
  | threw
  | crash

abbrev SBody (D : Type) := Body (SSelf D) (SReq D) (Outcome D) (SOut D)

/-- The calls with their arguments. -/
inductive SApi (D : Type) where
  | roots
  /-- `RequestCreateMessage`, and `RequestCreateMessageWithId` with an id. -/
  | sample (p : SampleReq D) (id : Option Bytes)
  | sampleTask (p : SampleReq D) (ttl : Option Int)
  | elicit (r : ElicitReq D)
  | elicitTask (r : ElicitReq D) (ttl : Option Int)
  | ping
  | callToolTask (name : Bytes) (args : JVal D) (ttl : Option Int)
  | getTask (id : Bytes)
  | cancelTask (id : Bytes)
  | taskResult (id : Bytes)
  | listTasks
  | listTasksPaged (cursor : Option Bytes) (limit : Option Int)

/-- `this->transport->SendRequest(q)` and the `co_await`. -/
def send (q : SReq D) (k : Outcome D → SBody D) : SBody D :=
  .own id fun s => if s.transport then .ask q k else .ret .crash

/-- `if (!this->transport)` before anything else. -/
def wired (bare : SOut D) (k : SBody D) : SBody D := .own id fun s => if s.transport then k else .ret bare

/-- `if (!this->clientCapabilities. ...)`. -/
def offers (c : ClientCaps D → Bool) (no : SOut D) (k : SBody D) : SBody D := .own id fun s => if c s.caps then k else .ret no

/-- `this->validationMode` is read only when there is a result to validate. -/
def smode (c : Bool) (k : Bool → SBody D) : SBody D := if c then .own id fun s => k s.strict else k false

/-- The end of the calls that have nothing to do but to return. -/
def sgive {T : Type} (f : T → SVal D) : Option T → SBody D
  | none => .ret .threw
  | some t => .ret (.val (f t))

/-- `rememberOutboundTask`, 1474-1480. -/
def sremember (id : Bytes) (k : Tasks.Kind) (s : SSelf D) : SSelf D :=
  if id = [] then s else { s with kinds := fun j => if j = id then some k else s.kinds j }

/-- The end of the calls that make a task, 1995-2001, 2507-2512 and 2702-2707. -/
def screated (k : Tasks.Kind) : Except Bytes (Tasks.Task × Option (JVal D)) → SBody D
  | .error _ => .ret .threw
  | .ok (t, m) => .own (sremember t.taskId k) fun _ => .ret (.val (.created t m))

/-- `tasks->requests.createMessage`, 2465. -/
def samplesTasks (c : ClientCaps D) : Bool := match c.tasks with | some t => t.createMessage | none => false

/-- `tasks->requests.elicitationCreate`, 2662. -/
def elicitsTasks (c : ClientCaps D) : Bool := match c.tasks with | some t => t.elicitationCreate | none => false

/-- The validation of the parameters of an elicitation, 2615-2618 and 2688-2691. -/
def fitting (params : JVal D) (k : SBody D) : SBody D :=
  .own id fun s => if s.strict && !validateElicitationRequest params then .ret .threw else k

/-- The body of a call. The lines of Server.cpp are with each. -/
def sbody : SApi D → SBody D
  -- 2331-2396
  | .roots => wired (.val (.roots [])) <| offers (fun c => c.roots.isSome) (.val (.roots [])) <|
      send ⟨none, lit "roots/list", none⟩ fun o => smode (hasResult o) fun strict => sgive .roots (rootsOf strict o)
  -- 2398-2457 and 2520-2580
  | .sample p id => wired (.val (.json .null)) <| .arg <|
      send ⟨id, lit "sampling/createMessage", some (.obj (sampleParams p))⟩ fun o => .ret (.val (.json (sampleOf o)))
  -- 2459-2518
  | .sampleTask p ttl => wired .threw <| offers samplesTasks .threw <| .arg <|
      send ⟨none, lit "sampling/createMessage", some (withTask (sampleParams p) ttl)⟩ fun o =>
        smode (hasResult o) fun strict => screated .createMessage (Client.sampleTask strict [] o)
  -- 2582-2654
  | .elicit r => wired (.val (.elicited ⟨[], none, none⟩)) <| offers (fun c => c.elicitation.isSome) (.val (.elicited ⟨[], none, none⟩)) <| .arg <|
      fitting (.obj (elicitParams r)) <| send ⟨none, lit "elicitation/create", some (.obj (elicitParams r))⟩ fun o =>
        smode (hasResult o) fun strict => sgive .elicited (elicitResOf strict o)
  -- 2656-2706
  | .elicitTask r ttl => wired .threw <| offers elicitsTasks .threw <| .arg <|
      fitting (withTask (elicitParams r) ttl) <| send ⟨none, lit "elicitation/create", some (withTask (elicitParams r) ttl)⟩ fun o =>
        smode (hasResult o) fun strict => screated .elicitation (Client.elicitTask strict [] o)
  -- 2708-2731
  | .ping => wired (.val .nothing) <| send ⟨none, lit "ping", none⟩ fun o =>
      smode (hasResult o) fun strict => if Client.ping strict o then .ret (.val .nothing) else .ret .threw
  -- 1976-2002
  | .callToolTask name args ttl => .arg <| send ⟨none, lit "tools/call", some (taskCallParams name args ttl)⟩ fun o =>
      smode (hasResult o) fun strict => screated .toolCall (Client.callToolTask strict [] o)
  -- 2004-2025
  | .getTask id => .arg <| send ⟨none, lit "tasks/get", some (taskParams id)⟩ fun o =>
      smode (hasResult o) fun strict => sgive .task (Client.getTask strict [] o).toOption
  -- 2096-2117
  | .cancelTask id => .arg <| send ⟨none, lit "tasks/cancel", some (taskParams id)⟩ fun o =>
      smode (hasResult o) fun strict => sgive .task (Client.cancelTask strict [] o).toOption
  -- 2065-2094; `taskId` is read again after the `co_await`, 2083
  | .taskResult id => .arg <| send ⟨none, lit "tasks/result", some (taskParams id)⟩ fun o =>
      if hasResult o then .arg <| .own _root_.id fun s => .own _root_.id fun s' => sgive .json (Client.taskResult s'.strict (s.kinds id) o)
      else sgive .json (Client.taskResult false none o)
  -- 2027-2032
  | .listTasks => send ⟨none, lit "tasks/list", none⟩ fun o =>
      smode (hasResult o) fun strict => sgive (fun p => .tasks p.1) (Client.listTasks strict [] o).toOption
  -- 2034-2063
  | .listTasksPaged c l => .arg <| send ⟨none, lit "tasks/list", pageParams c l⟩ fun o =>
      smode (hasResult o) fun strict => sgive .taskPage (Client.listTasks strict [] o).toOption

end Verif.Await
