import Verif.Server.Caps

/-!
Settings of the server that are advertised under `experimental`, and the keepalive loop: `SetKeepaliveIntervalMs` (src/mcp/Server.cpp
3047-3139), `SetKeepaliveFailureThreshold` (3141-3156), the advertising part of `SetLoggingRateLimitPerSecond` (3158-3185),
`SetCapabilities` (3315-3318), `SetResourceReadChunkingMaxBytes` (3320-3341), and the parts of `coStop` (1921-1938) that concern the loop.

The loop is a thread with two kinds of steps: it wakes up and either ends, goes back to waiting or sends (`wake`), and a send ends
(`sent`). `failed` is the flag `keepaliveSendFailed` at the end of the send: `SendNotification` threw, or the transport reported any error
meanwhile (1520-1532). A call that joins the thread is done when the thread has ended (`joined`); until
then `SetKeepaliveIntervalMs` and `Stop` are not called again (two threads inside them at once would race on the thread object). Each
setter is one step. The error callback and log output are not modelled; neither is the length of the wait.
-/

namespace Verif.Server

open Caps

variable {D : Type}

/-- The keepalive thread. `ended` means that it has returned from its loop but is still joinable. -/
inductive Loop where
  | none | waiting | sending | ended
  deriving DecidableEq

inductive KeepEv where
  /-- A keepalive notification was sent; was it taken for a success? -/
  | sent (ok : Bool)
  /-- The loop closed the transport. -/
  | closed
  deriving DecidableEq

/-- The members 194-208, and the part of `capabilities` concerned. -/
structure Keep (D : Type) where
  interval : Int
  threshold : Nat
  failures : Nat
  stop : Bool
  loop : Loop
  /-- A setter is joining the thread; afterwards it resets `keepaliveStop`, or not. -/
  joining : Option Bool
  rate : Nat
  experimental : Obj D
  hist : List KeepEv

inductive KeepOp (D : Type) where
  | setInterval (ms : Option Int)
  | setThreshold (n : Option Nat)
  | setRate (n : Option Nat)
  | setChunking (n : Option Nat)
  | setCapabilities (experimental : Obj D)
  /-- `Stop()`. -/
  | stopServer
  | joined
  /-- The loop wakes up; is the transport connected? -/
  | wake (connected : Bool)
  | sent (failed : Bool)

def keepKey : Bytes := lit "keepalive"
def rateKey : Bytes := lit "loggingRateLimit"
def chunkKey : Bytes := lit "resourceReadChunking"

/-- 3068-3072 and 3150-3154. -/
def keepAdvert (ms : Int) (threshold : Nat) : JVal D :=
  .obj [(lit "enabled", .bool true), (lit "intervalMs", .int ms), (lit "failureThreshold", .int threshold)]

/-- 3175-3178. -/
def rateAdvert (n : Nat) : JVal D := .obj [(lit "enabled", .bool true), (lit "perSecond", .int n)]

/-- `joinable()`. -/
def Loop.joinable : Loop → Bool
  | .none => false
  | _ => true

/-- Stop and join the thread, if there is one, 3055-3063 and 1924-1931. -/
def Keep.halt (s : Keep D) (resetStop : Bool) : Keep D :=
  if s.loop.joinable then { s with stop := true, joining := some resetStop } else s

/-- `SetKeepaliveIntervalMs`, 3047-3139. -/
def Keep.setInterval (s : Keep D) (ms : Int) : Keep D :=
  if ms ≤ 0 then { s with interval := -1, experimental := AMap.del s.experimental keepKey }.halt true
  else
    let s := { s with experimental := AMap.put s.experimental keepKey (keepAdvert ms s.threshold), interval := ms }
    if s.loop.joinable then s else { s with stop := false, loop := .waiting }

/-- `SetKeepaliveFailureThreshold`, 3141-3156. -/
def Keep.setThreshold (s : Keep D) (n : Option Nat) : Keep D :=
  let t := n.getD s.threshold
  let t := if t < 1 then 1 else t
  { s with threshold := t
           experimental := if 0 < s.interval then AMap.put s.experimental keepKey (keepAdvert s.interval t) else s.experimental }

/-- `SetLoggingRateLimitPerSecond`, 3158-3185 (the window is in `Limiter`). -/
def Keep.setRate (s : Keep D) (n : Nat) : Keep D :=
  if n = 0 then { s with rate := 0, experimental := AMap.del s.experimental rateKey }
  else { s with rate := n, experimental := AMap.put s.experimental rateKey (rateAdvert n) }

/-- The object `resourceReadChunking` as it is, or an empty one, 3323-3327. -/
def chunkObj (e : Obj D) : Obj D := match AMap.get e chunkKey with | some (.obj o) => o | _ => []

/-- `SetResourceReadChunkingMaxBytes`, 3320-3341. The cast to `int64_t` is left out. -/
def Keep.setChunking (s : Keep D) (n : Option Nat) : Keep D :=
  let o := AMap.put (chunkObj s.experimental) (lit "enabled") (.bool true)
  let o := if 0 < n.getD 0 then AMap.put o (lit "maxChunkBytes") (.int (n.getD 0)) else AMap.del o (lit "maxChunkBytes")
  { s with experimental := AMap.put s.experimental chunkKey (.obj o) }

/-- `std::numeric_limits<unsigned int>::max()`. -/
def uintMax : Nat := 2 ^ 32 - 1

/-- `if (next != max) ++next`, 3118-3122. -/
def bump (n : Nat) : Nat := if n ≠ uintMax then n + 1 else n

/-- After a failure; `next` is the new count, 3123-3132. -/
def Keep.fail (s : Keep D) (next : Nat) : Keep D :=
  if s.threshold ≤ next then { s with failures := next, loop := .ended, hist := s.hist ++ [.sent false, .closed] }
  else { s with failures := next, loop := .waiting, hist := s.hist ++ [.sent false] }

/-- The end of a send, 3116-3136. -/
def Keep.afterSend (s : Keep D) (failed : Bool) : Keep D :=
  if failed then s.fail (bump s.failures) else { s with failures := 0, loop := .waiting, hist := s.hist ++ [.sent true] }

/-- The loop wakes up, 3082-3100. -/
def Keep.wake (s : Keep D) (connected : Bool) : Keep D :=
  if s.loop = .waiting then
    if s.stop || decide (s.interval ≤ 0) then { s with loop := .ended }
    else if connected then { s with loop := .sending } else s
  else s

/-- One step. -/
def Keep.step (s : Keep D) : KeepOp D → Keep D
  | .wake c => s.wake c
  | .sent f => if s.loop = .sending then s.afterSend f else s
  | .joined =>
    match s.joining with
    | some r => if s.loop = .ended then { s with loop := .none, joining := none, stop := if r then false else s.stop } else s
    | none => s
  | .setInterval ms => if s.joining = none then s.setInterval (ms.getD (-1)) else s
  | .setThreshold n => s.setThreshold n
  | .setRate n => s.setRate (n.getD 0)
  | .setChunking n => s.setChunking n
  | .setCapabilities e => { s with experimental := e }
  | .stopServer => if s.joining = none then s.halt false else s

def Keep.run (s : Keep D) (ops : List (KeepOp D)) : Keep D := ops.foldl Keep.step s

/-- A new server, 194-208 and 1110-1136. -/
def Keep.init : Keep D :=
  { interval := -1, threshold := 3, failures := 0, stop := false, loop := .none, joining := none, rate := 0
    experimental := defaultServer.experimental, hist := [] }

end Verif.Server
