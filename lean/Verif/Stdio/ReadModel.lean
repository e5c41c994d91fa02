import Verif.Framer.Model

/-!
Model of the Linux read loop of the stdio transport (src/mcp/StdioTransport.cpp 420-572, epoll branch) against a pipe.

The kernel side of the pipe is the bytes written and not yet read and whether all writers are gone. `epoll_wait` reports
`EPOLLHUP` for a pipe whose writers are gone, together with `EPOLLIN` while bytes are left; that is the documented behaviour of
pipes and is part of the trusted reading. Timer wake-ups, `EINTR` and the wake event change nothing and are the step `idle`.
-/

namespace Verif.Stdio
open Framer

/-- Reader plus pipe. `written` is a history variable: all bytes the peer ever wrote. -/
structure Pipe where
  reader : Reader
  avail : Bytes
  hup : Bool
  hupErrors : Nat
  written : Bytes

def Pipe.init : Pipe := { reader := Reader.init, avail := [], hup := false, hupErrors := 0, written := [] }

/-- One iteration of `while (connected)`, lines 422-571. `staleErrno`: whether the left-over `errno` makes the test at lines 549-556
leave the loop when nothing was read. -/
def Pipe.iterate (max : Nat) (stay : List Bytes → Bool) (s : Pipe) (staleErrno : Bool) : Pipe :=
  if s.reader.connected = false then s
  else if s.hup then
    -- lines 457-462: hang-up is reported and `read` is not called
    { s with hupErrors := s.hupErrors + 1,
             reader := if staleErrno then { s.reader with connected := false } else s.reader }
  else if s.avail = [] then s
  else
    -- lines 463-464 and 540-560: read up to 4096 bytes, append, drain
    { s with avail := s.avail.drop 4096, reader := feed max stay s.reader (s.avail.take 4096) }

inductive PipeOp where
  | peerWrite (bs : Bytes)
  | peerClose
  | iterate (staleErrno : Bool)

/-- The effect of a step. A peer that has closed its end writes no more. -/
def Pipe.step (max : Nat) (stay : List Bytes → Bool) (s : Pipe) : PipeOp → Pipe
  | .peerWrite bs => if s.hup then s else { s with avail := s.avail ++ bs, written := s.written ++ bs }
  | .peerClose => { s with hup := true }
  | .iterate e => s.iterate max stay e

def Pipe.run (max : Nat) (stay : List Bytes → Bool) (s : Pipe) (ops : List PipeOp) : Pipe :=
  ops.foldl (Pipe.step max stay) s

end Verif.Stdio
