import Verif.Base.Bytes

/-!
Model of the life of a stdio transport, src/mcp/StdioTransport.cpp: `Start` (1029-1037), `Close` (1039-1145), `~Impl` (161-176) and the threads that read (420-572, 667-697), write
(699-722, 875-924) and watch the deadlines (927-975).

Threads: the caller of `Start`, `Close` and the destructor; for each `Start` one thread that reads, one that writes and one that watches. `Close` waits 500 ms for each of the first two
and then lets them go (`detach`); a thread that was let go still uses the members. An execution is an arbitrary list of steps.

What is simplified: one of `Start`, `Close` and the destructor at a time; `Close` may be called by a handler, that is, on a thread that reads; the destructor may not. `SendRequest` is one step
(for its steps see Stdio/PendingModel). Handlers are run one after the other; what they do, except `Close`, plays no part. A wait with a time limit is one that may end at any
time: the 100 ms of `epoll_wait`, the 500 ms of `Close`, the nearest deadline. The condition variables wake all who sleep (there is one sleeper in every proper use). The bound of the
write queue (see Stdio/WriteModel) and its error are left out. Which requests time out is an input.
-/

namespace Verif.Stdio

/-- A thread that reads: at the test of `connected` (422); in `epoll_wait` and `read`; in a handler; out of the loop, before 693; ended. -/
inductive SlRead where
  | test | wait | handle | leaving | ended
  deriving DecidableEq

/-- A thread that writes: before 877; at the test of `connected` (889); at the predicate of the wait in `dequeueNextFrame` (702); found it false; asleep; writes what is left of a
frame; ended. -/
inductive SlWrite where
  | entry | test | look | decided | asleep
  | write (rest : List Nat)
  | ended
  deriving DecidableEq

/-- A thread that watches the deadlines: at the test of `connected` (930, 933); found nothing to do; asleep without a time limit; asleep until the next deadline; ended. -/
inductive SlTimer where
  | test | decided | asleep | dated | ended
  deriving DecidableEq

/-- Where the call stands. `Close`: before 1042, 1044; in the wait 1098, the join 1101; before 1110; in the wait 1118, the join 1121, the join 1129; before 1132. The destructor: before 162, in
the join 165, before 171 or in the join 173, after its body; destroyed. -/
inductive SlCall where
  | idle | flag | notify | rWait | rJoin | wNotify | wWait | wJoin | tJoin | fail | dRead | dRJoin | dTJoin | dMembers | destroyed
  deriving DecidableEq

/-- What the caller can see. -/
inductive SlEv where
  | started | closed
  deriving DecidableEq

/-- Threads of the three kinds. -/
inductive SlThread where
  | reader (j : Nat)
  | writer (j : Nat)
  deriving DecidableEq

/-- The members 56-90. `out` is what standard output has got, `reads` what each thread has read, `failed` the requests that were told that the transport is closed, `left` the threads that
were let go; these and `log` are history. A request is known by its frame. -/
structure Sl where
  connected : Bool
  readerExited : Bool
  writerExited : Bool
  readers : List SlRead
  writers : List SlWrite
  timers : List SlTimer
  /-- the thread that `readerThread` stands for, and so on -/
  rd : Option Nat
  wr : Option Nat
  tm : Option Nat
  queue : List (List Nat)
  out : List Nat
  pending : List (List Nat)
  failed : List (List Nat)
  reads : List (Nat × List Nat)
  call : SlCall
  /-- `Close` was called on this thread that reads -/
  self : Option Nat
  left : List SlThread
  /-- `std::terminate` -/
  dead : Bool
  /-- the members are destroyed -/
  gone : Bool
  /-- a destroyed member was used -/
  ub : Bool
  log : List SlEv
  deriving DecidableEq

def Sl.init : Sl := ⟨false, false, false, [], [], [], none, none, none, [], [], [], [], [], .idle, none, [], false, false, false, []⟩

/-- What comes of `epoll_wait` and `read`. -/
inductive SlIn where
  | nothing
  /-- some bytes; `whole`: with them a message is complete -/
  | bytes (c : List Nat) (whole : Bool)
  | eof
  deriving DecidableEq

inductive SlOp where
  | start | destroy
  | close (self : Option Nat)
  /-- the call goes on -/
  | caller
  /-- the 500 ms are over -/
  | giveUp
  /-- a thread that reads goes on -/
  | reader (j : Nat) (o : SlIn)
  /-- its handler returns -/
  | handled (j : Nat)
  /-- a thread that writes goes on: `write` takes so many bytes, or fails -/
  | writer (j : Nat) (o : Option Nat)
  /-- a thread that watches goes on: so many requests have timed out -/
  | timer (j : Nat) (expired : Nat)
  /-- `SendRequest` -/
  | send (frame : List Nat)
  /-- the answer to a request came -/
  | answer (i : Nat)
  deriving DecidableEq

def Sl.wakeTimers (s : Sl) : Sl := { s with timers := s.timers.map fun t => if t = .asleep then .test else t }

def Sl.wakeWriters (s : Sl) : Sl := { s with writers := s.writers.map fun t => if t = .asleep then .look else t }

/-- `Start`, 1029-1037. The assignment of a thread to one that is joinable ends the process. -/
def Sl.start (s : Sl) : Sl :=
  if s.rd = none ∧ s.wr = none ∧ s.tm = none then
    { s with connected := true, readers := s.readers ++ [.test], writers := s.writers ++ [.entry], timers := s.timers ++ [.test],
             rd := some s.readers.length, wr := some s.writers.length, tm := some s.timers.length, log := s.log ++ [.started] }
  else { s with connected := true, dead := true, log := s.log ++ [.started] }

/-- A thread that reads, 420-572, 693-695. -/
def Sl.goReader (s : Sl) (j : Nat) (o : SlIn) : Sl :=
  match s.readers[j]? with
  | some .test => { s with readers := s.readers.set j (if s.connected then .wait else .leaving) }
  | some .wait =>
    match o with
    | .nothing => { s with readers := s.readers.set j .test }
    | .bytes c whole => { s with reads := s.reads ++ [(j, c)], readers := s.readers.set j (if whole then .handle else .test) }
    | .eof => { s with readers := s.readers.set j .leaving }
  | some .leaving => { s with connected := false, readerExited := true, readers := s.readers.set j .ended }
  | _ => s

/-- A thread that writes, 699-722, 875-924. A frame that is not written whole when the transport is closed is dropped. -/
def Sl.goWriter (s : Sl) (j : Nat) (o : Option Nat) : Sl :=
  match s.writers[j]? with
  | some .entry => { s with writerExited := false, writers := s.writers.set j .test }
  | some .test => if s.connected then { s with writers := s.writers.set j .look } else { s with writerExited := true, writers := s.writers.set j .ended }
  | some .look =>
    match s.queue with
    | f :: q => { s with queue := q, writers := s.writers.set j (.write f) }
    | [] => if s.connected then { s with writers := s.writers.set j .decided } else { s with writerExited := true, writers := s.writers.set j .ended }
  | some .decided => { s with writers := s.writers.set j .asleep }
  | some (.write rest) =>
    if s.connected = false ∨ rest = [] then { s with writers := s.writers.set j .test } else
    match o with
    | some n => { s with out := s.out ++ rest.take n, writers := s.writers.set j (.write (rest.drop n)) }
    | none => { s with connected := false, writers := s.writers.set j .test }
  | _ => s

/-- A thread that watches the deadlines, 927-975. -/
def Sl.goTimer (s : Sl) (j : Nat) (expired : Nat) : Sl :=
  match s.timers[j]? with
  | some .test => { s with timers := s.timers.set j (if s.connected then (if s.pending = [] then .decided else .dated) else .ended) }
  | some .decided => { s with timers := s.timers.set j .asleep }
  | some .dated => if s.connected then { s with pending := s.pending.drop expired, timers := s.timers.set j .test } else { s with timers := s.timers.set j .ended }
  | _ => s

/-- `Close`, 1039-1145, and the destructor, 161-176 and the members, of which a `std::thread` that is joinable ends the process. -/
def Sl.goCaller (s : Sl) : Sl :=
  match s.call with
  | .idle => s
  | .flag => { s with connected := false, call := .notify }
  | .notify => { s.wakeTimers with call := .rWait }
  | .rWait =>
    match s.rd with
    | none => { s with call := .wNotify }
    | some j =>
      if s.self = some j then { s with rd := none, left := s.left ++ [.reader j], call := .wNotify }
      else if s.readerExited then { s with call := .rJoin } else s
  | .rJoin =>
    match s.rd with
    | none => { s with call := .wNotify }
    | some j => if s.readers[j]? = some .ended then { s with rd := none, call := .wNotify } else s
  | .wNotify => if s.wr = none then { s with call := .tJoin } else { s.wakeWriters with call := .wWait }
  | .wWait => if s.writerExited then { s with call := .wJoin } else s
  | .wJoin =>
    match s.wr with
    | none => { s with call := .tJoin }
    | some j => if s.writers[j]? = some .ended then { s with wr := none, call := .tJoin } else s
  | .tJoin =>
    match s.tm with
    | none => { s with call := .fail }
    | some j => if s.timers[j]? = some .ended then { s with tm := none, call := .fail } else s
  | .fail => { s with failed := s.failed ++ s.pending, pending := [], call := .idle, self := none, log := s.log ++ [.closed] }
  | .dRead =>
    match s.rd with
    | none => { s with call := .dTJoin }
    | some j => if s.readerExited then { s with connected := false, call := .dRJoin } else { s with connected := false, rd := none, left := s.left ++ [.reader j], call := .dTJoin }
  | .dRJoin =>
    match s.rd with
    | none => { s with call := .dTJoin }
    | some j => if s.readers[j]? = some .ended then { s with rd := none, call := .dTJoin } else s
  | .dTJoin =>
    match s.tm with
    | none => { s with call := .dMembers }
    | some j => if s.timers[j]? = some .ended then { s with connected := false, tm := none, call := .dMembers } else { s with connected := false }
  | .dMembers => if s.wr = none then { s with gone := true, call := .destroyed } else { s with dead := true }
  | .destroyed => s

/-- The 500 ms of 1096-1099 or 1116-1119 are over; `readerExited` or `writerExited` is looked at once more. -/
def Sl.giveUp (s : Sl) : Sl :=
  match s.call with
  | .rWait =>
    match s.rd with
    | some j =>
      if s.self = some j then s
      else if s.readerExited then { s with call := .rJoin } else { s with rd := none, left := s.left ++ [.reader j], call := .wNotify }
    | none => s
  | .wWait =>
    match s.wr with
    | some j => if s.writerExited then { s with call := .wJoin } else { s with wr := none, left := s.left ++ [.writer j], call := .tJoin }
    | none => s
  | _ => s

def Sl.step (s : Sl) (op : SlOp) : Sl :=
  if s.dead || s.ub then s else
  match op with
  | .start => if s.call = .idle then s.start else s
  | .destroy => if s.call = .idle then { s with call := .dRead } else s
  | .close self =>
    if s.call = .idle then
      match self with
      | none => { s with call := .flag }
      | some j => if s.readers[j]? = some .handle then { s with call := .flag, self := some j } else s
    else s
  | .caller => s.goCaller
  | .giveUp => s.giveUp
  | .reader j o =>
    if s.gone = true ∧ (s.readers[j]?).any (fun t => decide (t ≠ .ended ∧ t ≠ .handle)) = true then { s with ub := true } else s.goReader j o
  | .handled j =>
    if s.readers[j]? = some .handle ∧ s.self ≠ some j then { s with readers := s.readers.set j .test } else s
  | .writer j o => if s.gone = true ∧ (s.writers[j]?).any (fun t => decide (t ≠ .ended)) = true then { s with ub := true } else s.goWriter j o
  | .timer j k => if s.gone = true ∧ (s.timers[j]?).any (fun t => decide (t ≠ .ended)) = true then { s with ub := true } else s.goTimer j k
  | .send f =>
    if s.gone = false ∧ s.connected = true then { s.wakeTimers.wakeWriters with pending := s.pending ++ [f], queue := s.queue ++ [f] } else s
  | .answer i => if s.gone = false then { s with pending := s.pending.eraseIdx i } else s

def Sl.run (s : Sl) (ops : List SlOp) : Sl := ops.foldl Sl.step s

end Verif.Stdio
