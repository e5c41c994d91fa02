/-!
Model of the keepalive thread and of the calls that start and stop it, step by step and with time: `SetKeepaliveIntervalMs`
(src/mcp/Server.cpp 3047-3139), the part of `coStop` (1924-1931) and of `~Server` (2742-2749) that joins the thread.

Time is counted in milliseconds and passes only in the step `tick`. A step of the thread or of the call is what happens between two points
where the other may come in; the flags are atomics, so each load or store of them is such a point, and the mutex is taken by the thread alone (the calls store
the flags and notify without it). `wait_for` with a predicate is `while (!pred()) if (wait_until(...) == timeout) return pred();`, a wake-up without cause may
come at any time.

What is simplified: one call at a time (two of them at once would race on the `std::thread` object); how a send ends is an input, as is whether
this closes the transport (`Server/Settings` has the count of failures); a failed send that does not throw calls no error callback (3109-3114), here the stage is then
passed without a call. A `SetKeepaliveIntervalMs` from the error callback on the thread itself joins that very thread, which throws and is caught
(3059-3061); calls on the thread while another thread is inside such a call are left out. The interval is a natural number, 0 stands for -1.
-/

namespace Verif.Server

/-- Where the thread stands: not there; at the loop test 3082; at 3083; the delay is read, 3086; about to evaluate the predicate, the wait being over at `u`; found it false;
blocked; out of the wait, 3095; at 3097; at 3098; in `SendNotification`; in the error callback (and then, if `closes`, leaves the loop); ended but joinable. -/
inductive BeatTh where
  | none | top | read
  | got (d : Nat)
  | test (d u : Nat)
  | decided (d u : Nat)
  | blocked (d u : Nat)
  | left | past | live | sending
  | callback (closes : Bool)
  | ended
  deriving DecidableEq

/-- Where the call stands: none; the interval is stored, 3074; before 3056 (1925, 2743), before 3058, in `join`. `reset`: the flag is lowered afterwards, 3062. -/
inductive BeatCall where
  | idle | on
  | flag (reset : Bool)
  | notify (reset : Bool)
  | join (reset : Bool)
  deriving DecidableEq

/-- The members 194-202. `sent` is a history variable: the times of the keepalives. -/
structure Beat where
  now : Nat
  interval : Nat
  stop : Bool
  th : BeatTh
  call : BeatCall
  connected : Bool
  sent : List Nat
  deriving DecidableEq

/-- A new server. -/
def Beat.init : Beat := ⟨0, 0, false, .none, .idle, true, []⟩

inductive BeatOp where
  /-- `SetKeepaliveIntervalMs` with a positive value, up to the store of the interval -/
  | setOn (d : Nat)
  /-- `SetKeepaliveIntervalMs` with none or a value that is not positive -/
  | setOff
  /-- `Stop`, `~Server` -/
  | halt
  /-- the call goes on -/
  | caller
  /-- the thread goes on -/
  | thread
  | spurious
  /-- the send is over -/
  | result (failed closes : Bool)
  /-- the calls, made by the error callback on the thread -/
  | selfOn (d : Nat)
  | selfOff
  | selfHalt
  | connect (b : Bool)
  | tick
  deriving DecidableEq

/-- `notify_all`. -/
def BeatTh.woken : BeatTh → BeatTh
  | .blocked d u => .test d u
  | t => t

/-- In the error callback. -/
def BeatTh.calling : BeatTh → Bool
  | .callback _ => true
  | _ => false

/-- One step of the thread, 3081-3138. -/
def Beat.thread (s : Beat) : Beat :=
  match s.th with
  | .none => s
  | .top => { s with th := if s.stop then .ended else .read }
  | .read => { s with th := if s.interval = 0 then .ended else .got s.interval }
  | .got d => { s with th := .test d (s.now + d) }
  | .test d u => { s with th := if s.stop || decide (s.interval ≠ d) then .left else .decided d u }
  | .decided d u => { s with th := .blocked d u }
  | .blocked _ u => if u ≤ s.now then { s with th := .left } else s
  | .left => { s with th := if s.stop then .ended else .past }
  | .past => { s with th := if s.interval = 0 then .ended else .live }
  | .live => if s.connected then { s with th := .sending, sent := s.sent ++ [s.now] } else { s with th := .top }
  | .sending => s
  | .callback closes => { s with th := if closes then .ended else .top }
  | .ended => s

/-- One step of the call. -/
def Beat.caller (s : Beat) : Beat :=
  match s.call with
  | .idle => s
  | .on => if s.th = .none then { s with stop := false, th := .top, call := .idle } else { s with th := s.th.woken, call := .idle }
  | .flag r => { s with stop := true, call := .notify r }
  | .notify r => { s with th := s.th.woken, call := .join r }
  | .join r => if s.th = .ended then { s with th := .none, stop := if r then false else s.stop, call := .idle } else s

/-- The thread, if there is one, is to be stopped: `if (keepaliveThread.joinable())`. -/
def Beat.haltBy (s : Beat) (reset : Bool) : Beat := if s.th = .none then s else { s with call := .flag reset }

/-- One step. -/
def Beat.step (s : Beat) : BeatOp → Beat
  | .setOn d => if s.call = .idle ∧ 0 < d then { s with interval := d, call := .on } else s
  | .setOff => if s.call = .idle then { s with interval := 0 }.haltBy true else s
  | .halt => if s.call = .idle then s.haltBy false else s
  | .caller => s.caller
  | .thread => s.thread
  | .spurious => { s with th := s.th.woken }
  | .result failed closes => if s.th = .sending then { s with th := if failed then .callback closes else .top } else s
  | .selfOn d => if s.th.calling ∧ s.call = .idle ∧ 0 < d then { s with interval := d } else s
  | .selfOff => if s.th.calling ∧ s.call = .idle then { s with interval := 0, stop := false } else s
  | .selfHalt => if s.th.calling ∧ s.call = .idle then { s with stop := true } else s
  | .connect b => { s with connected := b }
  | .tick => { s with now := s.now + 1 }

def Beat.run (s : Beat) (ops : List BeatOp) : Beat := ops.foldl Beat.step s

/-- The thread has nothing to do at the moment. -/
def Beat.threadRests (s : Beat) : Bool :=
  match s.th with
  | .none => true
  | .ended => true
  | .blocked _ u => decide (s.now < u)
  | _ => false

/-- The call has nothing to do at the moment. -/
def Beat.callRests (s : Beat) : Bool :=
  match s.call with
  | .idle => true
  | .join _ => decide (s.th ≠ .ended)
  | _ => false

/-- Executions in which thread and call go on at once: time passes only when both have nothing to do. -/
def Beat.Prompt (s : Beat) : List BeatOp → Prop
  | [] => True
  | op :: l => (op = .tick → s.threadRests = true ∧ s.callRests = true) ∧ (s.step op).Prompt l

end Verif.Server
