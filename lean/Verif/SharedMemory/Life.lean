import Verif.Base.Bytes

/-!
Model of the life of shared-memory transports, src/mcp/SharedMemoryTransport.cpp: `Start` (219-292), `Close` (294-346) and `~Impl` (62-82), with the thread that takes messages (249-287)
and `processMessage` (84-148).

First one transport (`Sm`): what its queues give it is input. Threads: the caller of `Start`, `Close` and the destructor; for each `Start` one thread that takes messages; one thread, let go at
once, for each request. Then any number of transports on one channel (`Chan`): the two names `<channel>_c2s` and `<channel>_s2c`, what they stand for, and the queues, which outlive their names.

What is simplified: one of `Start`, `Close` and the destructor at a time; `Close` may be called by a notification handler, that is, on the thread that takes messages; `Start` and the destructor
may not. The part of `Start` that removes, makes or opens the queues (221-246) is one step, so is the removal of the names (321-332, 69-80). `SendRequest` is one step (for its steps see
SharedMemory/Model). The size of a message and of a queue is left out: whether a send succeeds is input. The 100 ms of `timed_receive` are over in one turn of the thread.
-/

namespace Verif.Shm

/-- A thread that takes messages: at the test 252; in `timed_receive` on the mapping number `g`; in the notification or error handler; out of the loop, before 274; ended. -/
inductive SmAt where
  | test
  | recv (g : Nat)
  | busy | leave | ended
  deriving DecidableEq

/-- The thread and its stop token. -/
structure SmWork where
  pos : SmAt
  stop : Bool
  deriving DecidableEq

/-- Where the call stands: none; in the assignment 249, before `request_stop`, in `join`; in `Close` before 297, 308, 309, in the join 312, before 319, 334; in the destructor before 64,
in the join 66, before 69; destroyed. -/
inductive SmCall where
  | idle | swap | swapJoin | cBye | cFlag | cStop | cJoin | cRemove | cFail | dStop | dJoin | dRemove | destroyed
  deriving DecidableEq

/-- What the caller can see: `Start` succeeded, `Start` failed, `Close` returned (`self`: on the thread of the transport). -/
inductive SmEv where
  | started | refused
  | closed (self : Bool)
  deriving DecidableEq

/-- The members 38-54. `recv` and `send` are the queues that `recvMq` and `sendMq` are mapped to, `gen` counts the mappings that `recvMq` has had; `names` is what this transport has last made
of the two names of the channel, `log` what can be seen; these two and `failed` are history. -/
structure Sm where
  create : Bool
  connected : Bool
  recv : Option Nat
  send : Option Nat
  gen : Nat
  works : List SmWork
  th : Option Nat
  /-- the threads of requests; true: the handler runs -/
  handlers : List Bool
  pending : List Nat
  failed : List Nat
  call : SmCall
  /-- `Close` was called on this thread -/
  self : Option Nat
  gone : Bool
  /-- a destroyed transport or mapping was used -/
  ub : Bool
  names : Option Nat × Option Nat
  log : List SmEv
  deriving DecidableEq

def Sm.init (create : Bool) : Sm := ⟨create, false, none, none, 0, [], none, [], [], [], .idle, none, false, false, (none, none), []⟩

/-- Messages, by what `processMessage` makes of them. `bye` is `transport/disconnected`. -/
inductive SmMsg where
  | answer (i : Nat)
  | request | note | bye
  deriving DecidableEq

/-- What comes of `timed_receive`. -/
inductive SmIn where
  | timeout | throws
  | got (m : SmMsg)
  deriving DecidableEq

/-- What comes of the attempt to make or open the queues: the first fails; the first is mapped to `q`, the second fails; both succeed. -/
inductive SmQ where
  | none
  | first (q : Nat)
  | both (q p : Nat)
  deriving DecidableEq

inductive SmOp where
  | start (r : SmQ)
  | close (self : Option Nat)
  | destroy
  /-- the call goes on -/
  | caller
  /-- a thread that takes messages goes on -/
  | work (j : Nat) (o : SmIn)
  /-- its handler returns -/
  | handled (j : Nat)
  /-- the handler of a request returns and its answer is sent -/
  | answered (h : Nat)
  /-- `SendRequest` -/
  | send (r : Nat)
  deriving DecidableEq

/-- `Start`, 219-292; a `jthread` that is assigned to is told to stop and joined, after the new thread was made. -/
def Sm.start (s : Sm) : SmQ → Sm
  | .none => { s with names := (none, none), log := s.log ++ [.refused] }
  | .first q => { s with recv := some q, gen := s.gen + 1, names := (some q, none), log := s.log ++ [.refused] }
  | .both q p =>
    let t : Sm := { s with recv := some q, send := some p, gen := s.gen + 1, names := (some q, some p), connected := true, works := s.works ++ [⟨.test, false⟩] }
    match s.th with
    | none => { t with th := some s.works.length, log := s.log ++ [.started] }
    | some _ => { t with call := .swap }

/-- Set the stop token of a thread. -/
def Sm.askStop (s : Sm) (j : Nat) : Sm := { s with works := s.works.modify j fun w => { w with stop := true } }

def Sm.failAll (s : Sm) : Sm := { s with failed := s.failed ++ s.pending, pending := [] }

/-- A thread that takes messages, 249-287, 84-148. -/
def Sm.goWork (s : Sm) (j : Nat) (o : SmIn) : Sm :=
  match s.works[j]? with
  | some ⟨.test, st⟩ => { s with works := s.works.set j ⟨if s.connected = true ∧ st = false then .recv s.gen else .leave, st⟩ }
  | some ⟨.recv g, st⟩ =>
    if g ≠ s.gen then { s with ub := true } else
    match o with
    | .timeout => { s with works := s.works.set j ⟨.test, st⟩ }
    | .throws => { s with connected := false, works := s.works.set j ⟨.leave, st⟩ }
    | .got (.answer i) => { s with pending := s.pending.eraseIdx i, works := s.works.set j ⟨.test, st⟩ }
    | .got .request => { s with handlers := s.handlers ++ [true], works := s.works.set j ⟨.test, st⟩ }
    | .got .note => { s with works := s.works.set j ⟨.busy, st⟩ }
    | .got .bye => { s.failAll with connected := false, works := s.works.set j ⟨.busy, st⟩ }
  | some ⟨.leave, st⟩ => { s.failAll with connected := false, works := s.works.set j ⟨.ended, st⟩ }
  | _ => s

/-- Whether thread `j` has ended. -/
def Sm.over (s : Sm) (j : Nat) : Bool := (s.works[j]?).any fun w => decide (w.pos = .ended)

/-- The rest of `Start`, of `Close` and of the destructor. A thread cannot join itself: `join` throws, which `Close` catches. -/
def Sm.goCaller (s : Sm) : Sm :=
  match s.call with
  | .idle => s
  | .swap =>
    match s.th with
    | some j => { s.askStop j with call := .swapJoin }
    | none => s
  | .swapJoin =>
    match s.th with
    | some j => if s.over j then { s with th := some (s.works.length - 1), call := .idle, log := s.log ++ [.started] } else s
    | none => s
  | .cBye => { s with call := .cFlag }
  | .cFlag => { s with connected := false, call := .cStop }
  | .cStop =>
    match s.th with
    | some j => { s.askStop j with call := if s.self = some j then .cRemove else .cJoin }
    | none => { s with call := .cRemove }
  | .cJoin =>
    match s.th with
    | some j => if s.over j then { s with th := none, call := .cRemove } else s
    | none => s
  | .cRemove => { s with names := (none, none), call := .cFail }
  | .cFail => { s.failAll with call := .idle, self := none, log := s.log ++ [.closed s.self.isSome] }
  | .dStop =>
    match s.th with
    | some j => { s.askStop j with call := .dJoin }
    | none => { s with call := .dRemove }
  | .dJoin =>
    match s.th with
    | some j => if s.over j then { s with th := none, call := .dRemove } else s
    | none => s
  | .dRemove => { s with names := (none, none), gone := true, call := .destroyed }
  | .destroyed => s

def Sm.step (s : Sm) (op : SmOp) : Sm :=
  if s.ub then s else
  match op with
  | .start r => if s.call = .idle then s.start r else s
  | .close none => if s.call = .idle then { s with call := .cBye } else s
  | .close (some j) => if s.call = .idle ∧ (s.works[j]?).map SmWork.pos = some .busy then { s with call := .cBye, self := some j } else s
  | .destroy => if s.call = .idle then { s with connected := false, call := .dStop } else s
  | .caller => s.goCaller
  | .work j o => if s.gone = true ∧ (s.works[j]?).any (fun w => decide (w.pos ≠ .ended)) = true then { s with ub := true } else s.goWork j o
  | .handled j =>
    match s.works[j]? with
    | some ⟨.busy, st⟩ => if s.self = some j then s else { s with works := s.works.set j ⟨.test, st⟩ }
    | _ => s
  | .answered h =>
    if s.handlers[h]? = some true then
      if s.gone then { s with ub := true } else { s with handlers := s.handlers.set h false }
    else s
  | .send r => if s.gone = false ∧ s.connected = true then { s with pending := s.pending ++ [r] } else s

def Sm.run (s : Sm) (ops : List SmOp) : Sm := ops.foldl Sm.step s

/-! ### A channel -/

/-- The names, the queues and the transports. -/
structure Chan where
  c2s : Option Nat
  s2c : Option Nat
  queues : List (List SmMsg)
  ts : List Sm
  deriving DecidableEq

def Chan.init (creates : List Bool) : Chan := ⟨none, none, [], creates.map Sm.init⟩

/-- What a transport does. The inputs: for `start` of a creator how many queues can be made, else whether the send or the receive works. A
request that cannot be sent gets its answer at once. -/
inductive SmAct where
  | start (can : Nat)
  | close (self : Option Nat)
  | destroy
  | caller (ok : Bool)
  | work (j : Nat) (ok : Bool)
  | handled (j : Nat)
  /-- the answer is that to request `i` of the other side -/
  | answered (h : Nat) (i : Nat) (ok : Bool)
  | send (r : Nat) (ok : Bool)
  /-- `SendNotification` -/
  | note (ok : Bool)
  deriving DecidableEq

def Chan.push (c : Chan) (q : Option Nat) (m : SmMsg) : Chan :=
  match q with
  | some q => { c with queues := c.queues.modify q (· ++ [m]) }
  | none => c

/-- Transport `i` of the channel makes a step. -/
def Chan.local (c : Chan) (i : Nat) (op : SmOp) : Chan := { c with ts := c.ts.modify i fun t => t.step op }

/-- The queues of `Start`, 221-246. -/
def Chan.start (c : Chan) (i : Nat) (t : Sm) (can : Nat) : Chan :=
  if t.create then
    match can with
    | 0 => { c with c2s := none, s2c := none }.local i (.start .none)
    | 1 => { c with c2s := some c.queues.length, s2c := none, queues := c.queues ++ [[]] }.local i (.start (.first c.queues.length))
    | _ => { c with c2s := some c.queues.length, s2c := some (c.queues.length + 1), queues := c.queues ++ [[], []] }.local i (.start (.both c.queues.length (c.queues.length + 1)))
  else
    match c.s2c, c.c2s with
    | none, _ => c.local i (.start .none)
    | some q, none => c.local i (.start (.first q))
    | some q, some p => c.local i (.start (.both q p))

/-- What `timed_receive` gives a thread of `t`, and the queues after it. -/
def Chan.take (c : Chan) (t : Sm) (j : Nat) (ok : Bool) : SmIn × List (List SmMsg) :=
  if ok = false then (.throws, c.queues) else
  match (t.works[j]?).map SmWork.pos, t.recv with
  | some (.recv g), some q =>
    if g ≠ t.gen then (.timeout, c.queues) else
    match c.queues[q]? with
    | some (m :: l) => (.got m, c.queues.set q l)
    | _ => (.timeout, c.queues)
  | _, _ => (.timeout, c.queues)

def Chan.step (c : Chan) (a : Nat × SmAct) : Chan :=
  match c.ts[a.1]? with
  | none => c
  | some t =>
    if t.ub then c else
    match a.2 with
    | .start can => if t.call = .idle then c.start a.1 t can else c
    | .close self => c.local a.1 (.close self)
    | .destroy => c.local a.1 .destroy
    | .caller ok =>
      match t.call, t.create with
      | .cBye, true => (if ok then c.push t.send .bye else c).local a.1 .caller
      | .cRemove, true => { c with c2s := none, s2c := none }.local a.1 .caller
      | .dRemove, true => { c with c2s := none, s2c := none }.local a.1 .caller
      | _, _ => c.local a.1 .caller
    | .work j ok => if t.gone then c.local a.1 (.work j .timeout) else { c with queues := (c.take t j ok).2 }.local a.1 (.work j (c.take t j ok).1)
    | .handled j => c.local a.1 (.handled j)
    | .answered h i ok => (if ok = true ∧ t.handlers[h]? = some true ∧ t.gone = false then c.push t.send (.answer i) else c).local a.1 (.answered h)
    | .send r ok => if ok = true ∧ t.connected = true ∧ t.gone = false then (c.push t.send .request).local a.1 (.send r) else c
    | .note ok => if ok = true ∧ t.gone = false then c.push t.send .note else c

def Chan.run (c : Chan) (as : List (Nat × SmAct)) : Chan := as.foldl Chan.step c

end Verif.Shm
