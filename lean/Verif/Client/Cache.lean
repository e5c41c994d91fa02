import Verif.Server.Listing
import Verif.Client.Requests

/-!
Model of the unpaged list calls of the client and of their cache: `coListTools`, `coListResources`, `coListResourceTemplates`,
`coListPrompts` (src/mcp/Client.cpp 1452-1519, 1589-1655, 1725-1793, 1864-1935), `invalidateCachesForListChanged` (538-551) as called from
`onNotification` (595-628), and `SetListingsCacheTtlMs` (2297-2310).

The four functions differ only in the method, the key, the validator and the element type, so they share one body here, and the element
type is a sum. A call has three separate steps: the look into the cache with the sending of the request, the arrival of the reply, and
the store into the cache, because the coroutine waits for the reply and because other threads can run between the reply and the store.
Each of the two accesses to the cache holds `cacheMutex` and is one step. The ttl is read without the mutex; that `SetListingsCacheTtlMs`
runs in the middle of such a read is not modelled. The steady clock counts nanoseconds and never goes back.
-/

namespace Verif.Client

open Validation Items Server

variable {D : Type}

/-- The four listings. -/
inductive Kind where
  | tools
  | resources
  | templates
  | prompts
  deriving DecidableEq

/-- An element of one of the four vectors. -/
inductive Item (D : Type) where
  | tool (t : Items.Tool D)
  | resource (r : Items.Resource D)
  | template (t : Items.Template D)
  | prompt (p : Items.Prompt D)

/-- The tools of a `tools/list` result, 1498-1507: an element that is not an object gives a default-constructed tool. -/
def allTools : List (JVal D) → List (Item D)
  | [] => []
  | .obj m :: vs => .tool (readTool m) :: allTools vs
  | _ :: vs => .tool (readTool []) :: allTools vs

/-- The member of the result that holds the listing: 1496, 1633, 1769, 1908. -/
def Kind.key : Kind → Bytes
  | .tools => lit "tools"
  | .resources => lit "resources"
  | .templates => lit "resourceTemplates"
  | .prompts => lit "prompts"

/-- The elements of the array: 1498-1507, 1635-1643, 1771-1779, 1910-1918. -/
def Kind.read : Kind → List (JVal D) → List (Item D)
  | .tools, l => allTools l
  | .resources, l => readItems (fun m => .resource (readResourceItem m)) l
  | .templates, l => readItems (fun m => .template (readTemplate m)) l
  | .prompts, l => readItems (fun m => .prompt (readPrompt m)) l

/-- The validator of the strict mode: 1475, 1611, 1747, 1886. -/
def Kind.valid : Kind → JVal D → Bool
  | .tools => validateToolsList
  | .resources => validateResourcesList
  | .templates => validateTemplatesList
  | .prompts => validatePromptsList

/-- The elements of a result, 1493-1509. -/
def Kind.items (k : Kind) (v : JVal D) : List (Item D) :=
  match v with
  | .obj m => match AMap.get m k.key with | some (.arr l) => k.read l | _ => []
  | _ => []

/-- The part of the body inside `try`, 1471-1510; `none` is an exception, which is passed on. -/
def Kind.listing (k : Kind) (strict : Bool) : Outcome D → Option (List (Item D))
  | .threw => none
  | .nul => some []
  | .resp r =>
    match r.error, r.result with
    | none, some v => if strict && !k.valid v then none else some (k.items v)
    | _, _ => some []

/-- `ToolsCache` and its three siblings, 201-204. -/
structure Slot (D : Type) where
  data : List (Item D)
  ts : Nat
  set : Bool

/-- How far a list call is. -/
inductive Stage (D : Type) where
  /-- The request is sent. -/
  | waiting
  /-- The reply is read, the store is still to come. -/
  | fetched (items : List (Item D))
  /-- The call has returned; `none` is an exception. -/
  | done (result : Option (List (Item D)))

/-- A list call: its kind and how far it is. -/
structure Call (D : Type) where
  kind : Kind
  stage : Stage D

/-- The cache of a client (197-204), the clock, the list calls made so far, and the requests sent for them. -/
structure Cache (D : Type) where
  strict : Bool
  now : Nat
  ttl : Option Nat
  slots : Kind → Slot D
  calls : List (Call D)
  sent : List Kind

/-- A new client. -/
def Cache.init (strict : Bool) : Cache D := ⟨strict, 0, none, fun _ => ⟨[], 0, false⟩, [], []⟩

/-- `listingsCacheTtlMs.has_value() && listingsCacheTtlMs.value() > 0`, 1455, 1512. -/
def enabled : Option Nat → Bool
  | some t => decide (t > 0)
  | none => false

/-- `ageMs <= static_cast<int64_t>(ttl)`, 1458-1460: `duration_cast` drops the fraction of a millisecond. -/
def fresh (now ts : Nat) : Option Nat → Bool
  | some t => decide ((((now - ts) / 1000000 : Nat) : Int) ≤ toI64 t)
  | none => false

/-- The data a call finds in the cache, 1455-1465. -/
def Cache.hit (s : Cache D) (k : Kind) : Option (List (Item D)) :=
  if enabled s.ttl && (s.slots k).set && fresh s.now (s.slots k).ts s.ttl then some (s.slots k).data else none

/-- The slot after `set = false`. -/
def Slot.clear (x : Slot D) : Slot D := { x with set := false }

/-- `invalidateCachesForListChanged`, 538-551: the kinds whose cache is dropped. -/
def invalidates (method : Bytes) (k : Kind) : Bool :=
  if method = lit "notifications/tools/list_changed" then decide (k = .tools)
  else if method = lit "notifications/resources/list_changed" then decide (k = .resources) || decide (k = .templates)
  else if method = lit "notifications/prompts/list_changed" then decide (k = .prompts)
  else false

/-- Whether `onNotification` gets to its last branch, 598-619. The other three branches never touch the caches. -/
def reaches (hasProgress hasStatus : Bool) (n : Notification D) : Bool :=
  !(decide (n.method = lit "notifications/progress") && hasProgress && n.params.isSome) &&
    !decide (n.method = lit "notifications/cancelled") &&
    !(decide (n.method = lit "notifications/tasks/status") && hasStatus && n.params.isSome)

/-- What can happen to the cache. -/
inductive CacheOp (D : Type) where
  /-- Time passes, in nanoseconds. -/
  | tick (ns : Nat)
  /-- `SetListingsCacheTtlMs`. -/
  | setTtl (ttl : Option Nat)
  /-- `onNotification`, for a client with these handlers. -/
  | note (hasProgress hasStatus : Bool) (n : Notification D)
  /-- A list call starts. -/
  | call (k : Kind)
  /-- The request of call number `i` ends. -/
  | reply (i : Nat) (o : Outcome D)
  /-- Call number `i` goes on after its reply. -/
  | store (i : Nat)

/-- `SetListingsCacheTtlMs`, 2297-2310. -/
def Cache.setTtl (s : Cache D) (t : Option Nat) : Cache D :=
  if enabled t then { s with ttl := t } else { s with ttl := none, slots := fun k => (s.slots k).clear }

/-- `onNotification`, 595-628. -/
def Cache.note (s : Cache D) (hasProgress hasStatus : Bool) (n : Notification D) : Cache D :=
  if reaches hasProgress hasStatus n then
    { s with slots := fun k => if invalidates n.method k then (s.slots k).clear else s.slots k }
  else s

/-- The start of a call, 1452-1469. -/
def Cache.call (s : Cache D) (k : Kind) : Cache D :=
  match s.hit k with
  | some d => { s with calls := s.calls ++ [⟨k, .done (some d)⟩] }
  | none => { s with calls := s.calls ++ [⟨k, .waiting⟩], sent := s.sent ++ [k] }

/-- The call when its reply arrives, 1471-1510. -/
def afterReply (strict : Bool) (k : Kind) (o : Outcome D) : Stage D :=
  match k.listing strict o with
  | some items => .fetched items
  | none => .done none

/-- The reply arrives, 1471-1510. -/
def Cache.reply (s : Cache D) (i : Nat) (o : Outcome D) : Cache D :=
  match s.calls[i]? with
  | some ⟨k, .waiting⟩ => { s with calls := s.calls.set i ⟨k, afterReply s.strict k o⟩ }
  | _ => s

/-- The slots after the store, 1512-1517. -/
def Cache.stored (s : Cache D) (k : Kind) (items : List (Item D)) : Kind → Slot D :=
  if enabled s.ttl then fun j => if j = k then ⟨items, s.now, true⟩ else s.slots j else s.slots

/-- The store and the return, 1511-1518. -/
def Cache.store (s : Cache D) (i : Nat) : Cache D :=
  match s.calls[i]? with
  | some ⟨k, .fetched items⟩ => { s with slots := s.stored k items, calls := s.calls.set i ⟨k, .done (some items)⟩ }
  | _ => s

def Cache.step (s : Cache D) : CacheOp D → Cache D
  | .tick ns => { s with now := s.now + ns }
  | .setTtl t => s.setTtl t
  | .note p t n => s.note p t n
  | .call k => s.call k
  | .reply i o => s.reply i o
  | .store i => s.store i

def Cache.run (s : Cache D) (ops : List (CacheOp D)) : Cache D := ops.foldl Cache.step s

end Verif.Client
