import Verif.Stdio.WriteModel

/-!
Model of the logger of the process (include/logging/Logger.h, src/logging/Logger.cpp, include/env/EnvVars.h) together with the
writer of the stdio transport (`Stdio/WriteModel`), both of which write to standard output.

The logger writes to `std::cout`, which keeps what it is given in a buffer and passes it on at times of its own (on a pipe: when the
buffer is full, at exit); the writer thread calls `write(2)`. One step is one `log` call, one `write`, or one time the buffer of
`std::cout` passes on some of its bytes; an execution is an arbitrary list of steps. The formatting of the message (`std::vformat`) is
left out: a step has the formatted text. `std::cerr` is not buffered. The environment does not change while the process runs (it is
read once). Windows branches are left out.
-/

namespace Verif.Log
open Framer Stdio

/-- `LogLevel`, Logger.h 50-56, in the order of the enumeration. -/
inductive Lvl where
  | debug
  | info
  | warn
  | error
  | fatal
deriving DecidableEq, Repr

/-- The value of the enumerator. -/
def Lvl.rank : Lvl → Nat
  | .debug => 0
  | .info => 1
  | .warn => 2
  | .error => 3
  | .fatal => 4

/-- The text the macros pass as `level`, Logger.h 283-287. -/
def Lvl.name : Lvl → Bytes
  | .debug => lit "DEBUG"
  | .info => lit "INFO"
  | .warn => lit "WARN"
  | .error => lit "ERROR"
  | .fatal => lit "FATAL"

/-- `::toupper` in the C locale, on one byte. -/
def upperCh (c : Char) : Char :=
  if 'a'.toNat ≤ c.toNat ∧ c.toNat ≤ 'z'.toNat then Char.ofNat (c.toNat - 32) else c

/-- Logger.h 170-189, `parseLogLevel`. -/
def parseLevel (s : Bytes) : Lvl :=
  let u := s.map upperCh
  if u = lit "DEBUG" then .debug
  else if u = lit "INFO" then .info
  else if u = lit "WARN" then .warn
  else if u = lit "ERROR" then .error
  else if u = lit "FATAL" then .fatal
  else if u = lit "WARNING" then .warn
  else .info

/-- EnvVars.h 20-25 with the test of Logger.h 237-240 and 255-258: `env` is what `getenv` returns. -/
def switch (env : Option Bytes) (dflt : Bytes) : Bool :=
  let v := env.getD dflt
  v = lit "1" || v = lit "true" || v = lit "TRUE"

/-- The environment of the process: `MCP_STDIO_MODE` and `MCP_LOG_COLOR`. -/
structure Env where
  stdioMode : Option Bytes
  logColor : Option Bytes

/-- Logger.h 255-258, `useStderr`. -/
def Env.toErr (e : Env) : Bool := switch e.stdioMode (lit "0")

/-- Logger.h 237-240, `colorEnabled`. -/
def Env.color (e : Env) : Bool := switch e.logColor (lit "1")

/-- Logger.h 241-252: the text of one entry. -/
def line (e : Env) (l : Lvl) (file : Bytes) (no : Nat) (msg : Bytes) : Bytes :=
  let tail := lit "] " ++ file ++ lit ":" ++ natDec no ++ lit ": " ++ msg ++ lit "\n"
  if e.color then
    lit "[" ++ (if l = .error then lit "\x1b[38;5;88m" else lit "\x1b[35m") ++ l.name ++ lit "\x1b[0m" ++ tail
  else lit "[" ++ l.name ++ tail

/-- The process. `cout` is what `std::cout` has been given and not passed on; `wire` and `err` what has been written to standard output
and standard error; `file` the contents written to the log file since it was opened. `exited` is set by `LOG_FATAL`. -/
structure Proc where
  env : Env
  level : Lvl
  w : W
  cout : Bytes
  wire : Bytes
  err : Bytes
  file : Option Bytes
  exited : Bool

/-- At the start: Logger.cpp 11-13. -/
def Proc.init (e : Env) : Proc :=
  { env := e, level := .info, w := W.init, cout := [], wire := [], err := [], file := none, exited := false }

/-- Logger.h 233-270, `log`. -/
def Proc.put (p : Proc) (t : Bytes) : Proc :=
  let p := if p.env.toErr then { p with err := p.err ++ t } else { p with cout := p.cout ++ t }
  { p with file := p.file.map (· ++ t) }

/-- Logger.h 283-286: the macros. `fatal` is never filtered (287) and ends the process with `_Exit`, which passes nothing on. -/
def Proc.log (p : Proc) (l : Lvl) (file : Bytes) (no : Nat) (msg : Bytes) : Proc :=
  if l = .fatal then { p.put (line p.env l file no msg) with exited := true }
  else if p.level.rank ≤ l.rank then p.put (line p.env l file no msg)
  else p

/-- Steps of the process. `flush k`: `std::cout` passes on its first `k` bytes. `setLevel`: `setLogLevelFromString`. `openLog s ok`:
`setLogFile`, with the heading `s`; when the file cannot be opened, there is none. -/
inductive POp where
  | io (op : WOp)
  | log (l : Lvl) (file : Bytes) (no : Nat) (msg : Bytes)
  | flush (k : Nat)
  | setLevel (s : Bytes)
  | openLog (stamp : Bytes) (ok : Bool)

/-- Logger.h 196-231, `setLogFile`: the heading. -/
def heading (stamp : Bytes) : Bytes := lit "\n=== Log opened at " ++ stamp ++ lit " ===\n"

/-- One step. Nothing happens after `LOG_FATAL`. -/
def Proc.step (p : Proc) (op : POp) : Proc :=
  if p.exited then p
  else match op with
  | .io op =>
    let w := p.w.step op
    { p with w := w, wire := p.wire ++ w.out.drop p.w.out.length }
  | .log l file no msg => p.log l file no msg
  | .flush k => { p with wire := p.wire ++ p.cout.take k, cout := p.cout.drop k }
  | .setLevel s => { p with level := parseLevel s }
  | .openLog stamp ok => { p with file := if ok then some (heading stamp) else none }

/-- An execution. -/
def Proc.run (p : Proc) (ops : List POp) : Proc := ops.foldl Proc.step p

/-- StdioTransport.cpp 1031: `Start` logs before it does anything else; `src` is the path of the source file in the binary. -/
def Proc.start (p : Proc) (src : Bytes) : Proc := p.log .info src 1031 (lit "Starting StdioTransport")

end Verif.Log
