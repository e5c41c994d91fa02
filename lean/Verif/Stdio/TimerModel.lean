import Verif.Base.AMap

/-!
Model of when the timeout thread of the stdio transport looks at the clock (src/mcp/StdioTransport.cpp 927-978): the thread waits
for a first deadline (933), or until the earliest deadline known when it went to sleep (940-951); a request sent meanwhile notifies
it (1185), but the predicate of the second wait is only `!connected`, so it goes back to sleep until the same moment.
Deadlines are `now + requestTimeout` (1183). Time in clock ticks. The transport stays connected.
-/

namespace Verif.Stdio

/-- What the timeout thread waits for: a first deadline, or a point in time. -/
inductive Wait where
  | first
  | until (t : Nat)
  deriving DecidableEq

structure T where
  now : Nat
  timeout : Nat
  /-- `requestDeadlines`. -/
  deadlines : List (Bytes × Nat)
  wait : Wait
  /-- Requests completed with "Request timeout", with the time of completion. -/
  timedOut : List (Bytes × Nat)
  deriving DecidableEq

def T.init (timeout : Nat) : T := ⟨0, timeout, [], .first, []⟩

inductive TOp where
  | advance (d : Nat)
  | send (key : Bytes)
  | answer (key : Bytes)
  | setTimeout (t : Nat)
  | turn
  deriving DecidableEq

/-- 939-944: the earliest deadline. -/
def minDeadline : List (Bytes × Nat) → Option Nat
  | [] => none
  | p :: l =>
    match minDeadline l with
    | none => some p.2
    | some m => some (min p.2 m)

/-- 931-950: going to sleep. -/
def T.sleep (s : T) : T :=
  { s with wait := match minDeadline s.deadlines with
      | none => .first
      | some m => .until m }

/-- Can the thread leave its wait? -/
def T.ready (s : T) : Bool :=
  match s.wait with
  | .first => !s.deadlines.isEmpty
  | .until t => decide (t ≤ s.now)

/-- A turn of the thread: if it can leave its wait it completes what has expired (956-975) and goes to sleep again. -/
def T.turn (s : T) : T :=
  if s.ready then
    T.sleep { s with
      deadlines := s.deadlines.filter (fun p => decide (s.now < p.2))
      timedOut := s.timedOut ++ (s.deadlines.filter (fun p => decide (p.2 ≤ s.now))).map (fun p => (p.1, s.now)) }
  else s

def T.step (s : T) : TOp → T
  | .advance d => { s with now := s.now + d }
  | .send key => { s with deadlines := AMap.put s.deadlines key (s.now + s.timeout) }
  | .answer key => { s with deadlines := AMap.del s.deadlines key }
  | .setTimeout t => { s with timeout := t }
  | .turn => s.turn

def T.run (s : T) (ops : List TOp) : T := ops.foldl T.step s

end Verif.Stdio
