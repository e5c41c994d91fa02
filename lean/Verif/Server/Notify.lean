import Verif.Server.Dispatch

/-!
Notifications the server sends on behalf of the application: `coNotifyResourceUpdated` (src/mcp/Server.cpp 2199-2221), `coSendProgress`
(2223-2237), `coLogToClient` (2239-2292) with `Logger::levelFromString` (include/logging/Logger.h 70-79), and the limiter of log messages
(2250-2264) with `SetLoggingRateLimitPerSecond` (Server.cpp 3158-3185).

The functions on `Srv` describe one call in a state in which no subscription request is half way; `Subs` is the finer machine in which
the atomic flag `resourcesSubscribed` and the set behind `registryMutex` are touched in separate steps. A notification is "sent" when it is
handed to the transport; what the transport does with it is modelled elsewhere.
-/

namespace Verif.Server

open Caps hiding Obj

variable {D H : Type}

/-- `shouldSend` of `coNotifyResourceUpdated`, 2201-2207. -/
def shouldSend (flag : Bool) (uris : List Bytes) (uri : Bytes) : Bool :=
  if flag then !(!uris.isEmpty && !uris.contains uri) else true

/-- `coNotifyResourceUpdated`, 2199-2221. -/
def Srv.notifyUpdated (s : Srv D H) (uri : Bytes) : Option (Notification D) :=
  if shouldSend s.resourcesSubscribed s.subscribedUris uri then
    some ⟨lit "notifications/resources/updated", some (.obj [(lit "uri", .str uri)])⟩
  else none

/-- `std::toupper` in the C locale, on one byte. -/
def upperCh (c : Char) : Char :=
  if 'a'.toNat ≤ c.toNat ∧ c.toNat ≤ 'z'.toNat then Char.ofNat (c.toNat - 32) else c

/-- `Logger::levelFromString`, Logger.h 70-79. -/
def levelFromString (t : Bytes) : Level :=
  let s := t.map upperCh
  if s = lit "DEBUG" then .debug
  else if s = lit "INFO" then .info
  else if s = lit "WARN" ∨ s = lit "WARNING" then .warn
  else if s = lit "ERROR" then .error
  else if s = lit "FATAL" then .fatal
  else .debug

/-- The value of the enumerator, Logger.h 61-67. -/
def Level.rank : Level → Nat
  | .debug => 0 | .info => 1 | .warn => 2 | .error => 3 | .fatal => 4

/-- The level filter of `coLogToClient`, 2242-2248. -/
def passesLevel (min sev : Level) : Bool :=
  if sev.rank < min.rank then (sev = .error || sev = .fatal) else true

/-- `specLevel`, 2268-2277. -/
def specLevel : Level → Bytes
  | .debug => lit "debug" | .info => lit "info" | .warn => lit "warning" | .error => lit "error" | .fatal => lit "critical"

/-- `coLogToClient` without a rate limit, 2239-2292. -/
def Srv.log (s : Srv D H) (level msg : Bytes) (data : Option (JVal D)) : Option (Notification D) :=
  if passesLevel s.logMin (levelFromString level) then
    some ⟨lit "notifications/message",
      some (.obj [(lit "level", .str (specLevel (levelFromString level))), (lit "data", data.getD (.str msg))])⟩
  else none

/-! ### Subscriptions, step by step -/

/-- What is left to do of a request or an update. -/
inductive SubStage where
  /-- `handleSubscribeRequest` has set the flag, 1840; the insertion is to come. -/
  | insert (uri : Option Bytes)
  /-- `handleUnsubscribeRequest` has erased, 1864-1872; it is to look at the set (without the mutex). -/
  | look
  /-- ... and has seen whether it is empty; the store to the flag is to come. -/
  | store (nonEmpty : Bool)
  /-- `coNotifyResourceUpdated` has read the flag. -/
  | check (uri : Bytes) (flag : Bool)
  deriving DecidableEq

/-- Events, for the history. -/
inductive SubEv where
  | inserted (uri : Bytes)
  | erased (uri : Option Bytes)
  | update (uri : Bytes) (sent : Bool)
  deriving DecidableEq

structure Subs where
  flag : Bool
  uris : List Bytes
  threads : List SubStage
  hist : List SubEv

def Subs.init : Subs := ⟨false, [], [], []⟩

inductive SubOp where
  | subscribe (uri : Option Bytes)
  | unsubscribe (uri : Option Bytes)
  | update (uri : Bytes)
  /-- The activity number `k` goes on. -/
  | go (k : Nat)

def addUri (l : List Bytes) (u : Bytes) : List Bytes := if l.contains u then l else l ++ [u]

def dropUri (l : List Bytes) (o : Option Bytes) : List Bytes :=
  match o with | some u => l.filter (fun x => decide (x ≠ u)) | none => []

/-- The activity `k`, at stage `st`, goes on: 1841-1848, 1873, 2202-2207. -/
def Subs.advance (s : Subs) (k : Nat) : SubStage → Subs
  | .insert none => { s with threads := s.threads.eraseIdx k }
  | .insert (some u) => { s with uris := addUri s.uris u, threads := s.threads.eraseIdx k, hist := s.hist ++ [.inserted u] }
  | .look => { s with threads := s.threads.set k (.store (!s.uris.isEmpty)) }
  | .store b => { s with flag := b, threads := s.threads.eraseIdx k }
  | .check u f => { s with threads := s.threads.eraseIdx k, hist := s.hist ++ [.update u (shouldSend f s.uris u)] }

/-- One step, 1838-1878 and 2199-2207. -/
def Subs.step (s : Subs) : SubOp → Subs
  | .subscribe o => { s with flag := true, threads := s.threads ++ [.insert o] }
  | .unsubscribe o => { s with uris := dropUri s.uris o, threads := s.threads ++ [.look], hist := s.hist ++ [.erased o] }
  | .update u => { s with threads := s.threads ++ [.check u s.flag] }
  | .go k => match s.threads[k]? with | none => s | some st => s.advance k st

def Subs.run (s : Subs) (ops : List SubOp) : Subs := ops.foldl Subs.step s

/-! ### The limiter -/

/-- One second on the steady clock, in its unit. -/
def second : Nat := 1000000000

/-- What became of a message that passed the level filter. -/
inductive LimEv where
  /-- No limit was in force when the limit was read. -/
  | free
  /-- Admitted under the limit `limit` at `time`. -/
  | sent (limit : Nat) (time : Nat)
  | throttled (limit : Nat) (time : Nat)
  /-- `logWindowStart` was set because the window was over. -/
  | rolled (time : Nat)
  /-- `logWindowStart` was set by `SetLoggingRateLimitPerSecond`. -/
  | reset (time : Nat)
  deriving DecidableEq

/-- `logRateLimitPerSec`, `logWindowStart`, `logWindowCount` (208-211); `loaded` are the limits read by calls that have not yet entered
the critical section. -/
structure Limiter where
  limit : Nat
  start : Nat
  count : Nat
  loaded : List Nat
  hist : List LimEv

def Limiter.init : Limiter := ⟨0, 0, 0, [], []⟩

inductive LimOp where
  /-- A message passes the level filter and reads the limit, 2251-2252. -/
  | load
  /-- The call number `k` enters the critical section at time `now`, 2253-2263. -/
  | enter (k : Nat) (now : Nat)
  /-- `SetLoggingRateLimitPerSecond` stores the limit ... -/
  | store (n : Nat)
  /-- ... and later resets the window. -/
  | reset (now : Nat)

/-- `if (now - start >= 1 s)`, 2255-2258. -/
def Limiter.roll (s : Limiter) (now : Nat) : Limiter :=
  if s.start + second ≤ now then { s with start := now, count := 0, hist := s.hist ++ [.rolled now] } else s

/-- 2259-2262. -/
def Limiter.admit (s : Limiter) (limit now : Nat) : Limiter :=
  if limit ≤ s.count then { s with hist := s.hist ++ [.throttled limit now] }
  else { s with count := s.count + 1, hist := s.hist ++ [.sent limit now] }

def Limiter.step (s : Limiter) : LimOp → Limiter
  | .load => if s.limit = 0 then { s with hist := s.hist ++ [.free] } else { s with loaded := s.loaded ++ [s.limit] }
  | .enter k now =>
    match s.loaded[k]? with
    | none => s
    | some n => ({ s with loaded := s.loaded.eraseIdx k }.roll now).admit n now
  | .store n => { s with limit := n }
  | .reset now => { s with start := now, count := 0, hist := s.hist ++ [.reset now] }

def Limiter.run (s : Limiter) (ops : List LimOp) : Limiter := ops.foldl Limiter.step s

end Verif.Server
