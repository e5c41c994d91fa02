import Verif.Base.AMap
import Verif.Rpc.Model

/-!
Model of the request bookkeeping of the stdio transport: `pendingRequests`, `requestDeadlines` and the request
counter (src/mcp/StdioTransport.cpp 75-77, 927-978, 1000-1015, 1023, 1039-1146, 1151-1191).

Critical sections under `requestMutex` are atomic steps. `SendRequest` is two steps, because it tests `connected`
before taking the lock. Futures are numbered in creation order. Time is in clock ticks (naturals); signed overflow of the
deadline is treated separately (`deadlineNs`).
-/

namespace Verif.Stdio

variable {D : Type}

/-- How a request future completes. `broken` is `std::future_error(broken_promise)`: the promise was overwritten in the map. -/
inductive Outcome (D : Type) where
  | response (r : Response D)
  | timeout (id : Bytes) (at_ : Nat)
  | closed (id : Bytes)
  | notConnected
  | broken

/-- The text under which a request or response is filed, StdioTransport.cpp 1001-1006 and 1165-1171. -/
def idText : RpcId → Bytes
  | .str s => s
  | .int i => intDec i
  | .null => []

/-- State. `sent` is a history variable: future, key, deadline of every completed insertion. -/
structure P (D : Type) where
  pending : List (Bytes × Nat)
  deadlines : List (Bytes × Nat)
  connected : Bool
  counter : Nat
  timeout : Nat
  /-- `SendRequest` calls that have passed the `connected` test and not yet inserted. -/
  checked : List (Nat × RpcId)
  nextFut : Nat
  outcomes : List (Nat × Outcome D)
  sent : List (Nat × Bytes × Nat)

/-- After `Start`; default timeout 30 s (StdioTransport.cpp 93). -/
def P.init : P D :=
  { pending := [], deadlines := [], connected := true, counter := 0, timeout := 30000, checked := [], nextFut := 0,
    outcomes := [], sent := [] }

/-- StdioTransport.cpp 1023, `generateRequestId` (`requestCounter` is a 32-bit unsigned atomic). -/
def genId (counter : Nat) : Bytes × Nat :=
  let c := (counter + 1) % 2 ^ 32
  (lit "req-" ++ natDec c, c)

/-- StdioTransport.cpp 1165-1175: the key used, and the counter afterwards. -/
def chooseKey (id : RpcId) (counter : Nat) : Bytes × Nat :=
  match id with
  | .str s => if s = [] then genId counter else (s, counter)
  | .int i => (intDec i, counter)
  | .null => genId counter

/-- Completing the promise stored under `key`, if any, and forgetting key and deadline (StdioTransport.cpp 965-975 and
1009-1014). -/
def P.complete (s : P D) (key : Bytes) (o : Outcome D) : P D :=
  match AMap.get s.pending key with
  | some n =>
    { s with pending := AMap.del s.pending key, deadlines := AMap.del s.deadlines key,
             outcomes := s.outcomes ++ [(n, o)] }
  | none => { s with deadlines := AMap.del s.deadlines key }

/-- Atomic steps. -/
inductive POp (D : Type) where
  | sendCheck (id : RpcId)
  | sendInsert (fut : Nat) (now : Nat)
  | response (r : Response D)
  | sweep (now : Nat)
  | disconnect
  | close
  | setTimeout (t : Nat)

/-- The entry of a `SendRequest` call waiting to insert. -/
def P.waiting (s : P D) (fut : Nat) : Option RpcId := AMap.get s.checked fut

/-- StdioTransport.cpp 1154-1163 / 1165-1184: the two halves of `SendRequest`. -/
def P.sendCheck (s : P D) (id : RpcId) : P D :=
  if s.connected then { s with checked := s.checked ++ [(s.nextFut, id)], nextFut := s.nextFut + 1 }
  else { s with outcomes := s.outcomes ++ [(s.nextFut, .notConnected)], nextFut := s.nextFut + 1,
                counter := (genId s.counter).2 }

/-- Lines 1165-1184. `pendingRequests[requestId] = std::move(promise)` destroys a promise already stored there. -/
def P.sendInsert (s : P D) (fut now : Nat) : P D :=
  match s.waiting fut with
  | none => s
  | some id =>
    let kc := chooseKey id s.counter
    { s with
      checked := AMap.del s.checked fut
      counter := kc.2
      outcomes := match AMap.get s.pending kc.1 with
        | some old => s.outcomes ++ [(old, .broken)]
        | none => s.outcomes
      pending := AMap.put s.pending kc.1 fut
      deadlines := AMap.put s.deadlines kc.1 (now + s.timeout)
      sent := s.sent ++ [(fut, kc.1, now + s.timeout)] }

/-- Keys whose deadline has passed, StdioTransport.cpp 958-964. -/
def P.expired (s : P D) (now : Nat) : List Bytes :=
  (s.deadlines.filter (fun p => decide (p.2 ≤ now))).map (·.1)

/-- One pass of the timeout thread (StdioTransport.cpp 930-975), which only runs while connected. -/
def P.sweep (s : P D) (now : Nat) : P D :=
  if s.connected then (s.expired now).foldl (fun s k => s.complete k (.timeout k now)) s else s

/-- `Close`, StdioTransport.cpp 1042 and 1132-1142. -/
def P.close (s : P D) : P D :=
  { s with connected := false, pending := [], deadlines := [],
           outcomes := s.outcomes ++ s.pending.map (fun p => (p.2, .closed p.1)) }

/-- The effect of a step. `disconnect`: end of input, overflow, write error. `setTimeout`: `SetRequestTimeoutMs` with a non-zero
value (1218-1226); see `deadlineNs` for zero. -/
def P.step (s : P D) : POp D → P D
  | .sendCheck id => s.sendCheck id
  | .sendInsert fut now => s.sendInsert fut now
  | .response r => s.complete (idText r.id) (.response r)
  | .sweep now => s.sweep now
  | .disconnect => { s with connected := false }
  | .close => s.close
  | .setTimeout t => { s with timeout := t }

/-- An execution. -/
def P.run (s : P D) (ops : List (POp D)) : P D := ops.foldl P.step s

/-- The deadline computed by `SendRequest` in the clock's own units: `steady_clock::now() + requestTimeout`
(StdioTransport.cpp 1183), nanoseconds in a signed 64-bit integer. `none` is signed overflow, undefined behaviour.
`timeoutMs = 0` stands for `SetRequestTimeoutMs(0)`, which stores `milliseconds::max()` (1220-1222). -/
def deadlineNs (timeoutMs nowNs : Nat) : Option Nat :=
  let ms := if timeoutMs = 0 then 2 ^ 63 - 1 else timeoutMs
  if ms * 1000000 + nowNs < 2 ^ 63 then some (ms * 1000000 + nowNs) else none

end Verif.Stdio
