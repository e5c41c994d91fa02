import Verif.Base.AMap
import Verif.Json.Access
import Verif.Stdio.PendingModel

/-!
Model of request cancellation in the server: `registerCancelToken`, `unregisterCancelToken`, `cancelById`, `registerStopSource`,
`unregisterStopSource` (src/mcp/Server.cpp 1020-1096), `parseIdFromParams` (625-639), the cancelled branch of `handleNotification`
(1144-1156), and the guards of `dispatchRequest` (1551-1553) and of the handlers (`StopSourceGuard`, 228-238).

Every critical section under `cancelMutex` is an atomic step; an execution is an arbitrary list of steps. Tokens and stop sources
are shared objects: they are numbered, and their flags are kept in lists.
-/

namespace Verif.Cancel

open Verif.Stdio (idText)

variable {D : Type}

/-- One call of `dispatchRequest`. -/
structure Call where
  /-- `idToString(req.id)`, 240-256 (same text as the transports use). -/
  id : Bytes
  live : Bool
  /-- The token from `registerCancelToken`. -/
  tok : Nat
  /-- The stop source of the handler that is running, if any. -/
  src : Option Nat
  deriving DecidableEq

structure St where
  /-- `CancellationToken::cancelled` of every token. -/
  toks : List Bool
  /-- `stop_requested` of every stop source. -/
  srcs : List Bool
  cancelMap : List (Bytes × Nat)
  stopSources : List (Bytes × List Nat)
  /-- All calls so far, in starting order. -/
  calls : List Call
  deriving DecidableEq

def St.init : St := ⟨[], [], [], [], []⟩

/-- `parseIdFromParams`, 625-639, and the test for missing parameters, 1146-1149. -/
def idFromParams (params : Option (JVal D)) : Bytes :=
  match params with
  | some v => match v.get? (lit "id") with
    | some (.str s) => s
    | some (.int i) => intDec i
    | _ => []
  | none => []

/-- `registerCancelToken`, 1020-1032, for a new call. -/
def St.start (s : St) (id : RpcId) : St :=
  let i := idText id
  if i = [] then
    { s with toks := s.toks ++ [false], calls := s.calls ++ [⟨i, true, s.toks.length, none⟩] }
  else
    match AMap.get s.cancelMap i with
    | some t => { s with calls := s.calls ++ [⟨i, true, t, none⟩] }
    | none =>
      { s with toks := s.toks ++ [false], cancelMap := AMap.put s.cancelMap i s.toks.length,
               calls := s.calls ++ [⟨i, true, s.toks.length, none⟩] }

/-- Is the token stored for `i` cancelled? (1075-1076) -/
def St.marked (s : St) (i : Bytes) : Bool :=
  match AMap.get s.cancelMap i with
  | some t => s.toks[t]?.getD false
  | none => false

/-- The sources registered for `i`. -/
def St.sources (s : St) (i : Bytes) : List Nat := (AMap.get s.stopSources i).getD []

/-- `registerStopSource`, 1069-1083, by the handler of call `n`. -/
def St.open (s : St) (n : Nat) : St :=
  match s.calls[n]? with
  | none => s
  | some c =>
    if c.live = true ∧ c.src = none then
      { s with srcs := s.srcs ++ [s.marked c.id]
               stopSources := AMap.put s.stopSources c.id (s.sources c.id ++ [s.srcs.length])
               calls := s.calls.set n { c with src := some s.srcs.length } }
    else s

/-- `unregisterStopSource`, 1085-1096. -/
def St.unregister (s : St) (i : Bytes) (k : Nat) : List (Bytes × List Nat) :=
  match AMap.get s.stopSources i with
  | none => s.stopSources
  | some l =>
    if (l.filter (fun x => decide (x ≠ k))).isEmpty then AMap.del s.stopSources i
    else AMap.put s.stopSources i (l.filter (fun x => decide (x ≠ k)))

/-- The handler of call `n` has returned: `~StopSourceGuard`. -/
def St.close (s : St) (n : Nat) : St :=
  match s.calls[n]? with
  | none => s
  | some c =>
    match c.src with
    | none => s
    | some k => { s with stopSources := s.unregister c.id k, calls := s.calls.set n { c with src := none } }

/-- `unregisterCancelToken`, 1034-1042, at the end of call `n`. -/
def St.release (s : St) (n : Nat) : St :=
  match s.calls[n]? with
  | none => s
  | some c =>
    if c.live then
      if c.id = [] then { s with calls := s.calls.set n { c with live := false } }
      else { s with cancelMap := AMap.del s.cancelMap c.id, stopSources := AMap.del s.stopSources c.id,
                    calls := s.calls.set n { c with live := false } }
    else s

/-- `cancelById`, 1044-1066. -/
def St.cancelById (s : St) (i : Bytes) : St :=
  let s1 := match AMap.get s.cancelMap i with
    | none => { s with toks := s.toks ++ [true], cancelMap := AMap.put s.cancelMap i s.toks.length }
    | some t => { s with toks := s.toks.set t true }
  { s1 with srcs := (s.sources i).foldl (fun l k => l.set k true) s.srcs }

/-- Atomic steps. `finish` ends the call: a guard still open is destroyed first. -/
inductive Op (D : Type) where
  | start (id : RpcId)
  | openSource (n : Nat)
  | closeSource (n : Nat)
  | finish (n : Nat)
  | cancel (params : Option (JVal D))

/-- The effect of a step; `cancel` is the notification (1144-1156): an empty id is ignored. -/
def St.step (s : St) : Op D → St
  | .start id => s.start id
  | .openSource n => s.open n
  | .closeSource n => s.close n
  | .finish n => (s.close n).release n
  | .cancel p => if idFromParams p = [] then s else s.cancelById (idFromParams p)

def St.run (s : St) (ops : List (Op D)) : St := ops.foldl St.step s

/-- What call `n` reads from its token (e.g. 1004, 1691). -/
def St.cancelled (s : St) (n : Nat) : Bool :=
  match s.calls[n]? with
  | some c => s.toks[c.tok]?.getD false
  | none => false

/-- What the running handler of call `n` reads from its stop token. -/
def St.stopRequested (s : St) (n : Nat) : Option Bool :=
  match s.calls[n]? with
  | some c => c.src.map (fun k => s.srcs[k]?.getD false)
  | none => none

end Verif.Cancel
