import Verif.Base.Bytes

/-!
Model of the Content-Length framer (src/mcp/ContentLengthFramer.cpp) and of the frame-draining loop of
the stdio transport (src/mcp/StdioTransport.cpp 255-288 plus the append of each chunk read).
`std::size_t` is 64 bits wide.
-/

namespace Verif.Framer

/-- `std::numeric_limits<std::size_t>::max()` (also `ULLONG_MAX`). -/
def sizeMax : Nat := 2 ^ 64 - 1

/-- ContentLengthFramer.cpp 33. -/
def sep : Bytes := ['\r', '\n', '\r', '\n']

/-- ContentLengthFramer.cpp 24-30, `encode`. -/
def encode (payload : Bytes) : Bytes :=
  lit "Content-Length: " ++ natDec payload.length ++ sep ++ payload

/-- ContentLengthFramer.cpp 42-47 and 69: the lines visited by the loop over the header text (the bytes
before the separator). `cur` is the part of the current line already passed; an empty rest at the start of a
line ends the loop (`pos < headerEnd` is false). The search for "\r\n" in the C++ code runs over the whole
buffer, but the separator itself starts with "\r\n", so it never stops beyond `headerEnd` and never straddles
it. -/
def headerLines : Bytes → Bytes → List Bytes
  | cur, [] => if cur = [] then [] else [cur]
  | cur, [c] => [cur ++ [c]]
  | cur, c :: d :: r =>
    if c = '\r' ∧ d = '\n' then cur :: headerLines [] r
    else headerLines (cur ++ [c]) (d :: r)

/-- `std::stoull(s)` (base 10): leading white space, optional sign, digits; `none` is an exception (no
digits or out of range). A minus sign negates modulo 2^64, as `strtoull` does. Trailing text is ignored. -/
def stoull (s : Bytes) : Option Nat :=
  let s1 := s.dropWhile isSpaceCh
  let neg := s1.head? = some '-'
  let s2 := if s1.head? = some '-' ∨ s1.head? = some '+' then s1.drop 1 else s1
  let ds := s2.takeWhile isDig
  if ds = [] then none
  else if digitsVal ds > sizeMax then none
  else if neg then some ((2 ^ 64 - digitsVal ds) % 2 ^ 64)
  else some (digitsVal ds)

/-- Outcome of the header loop. -/
inductive Hdr where
  | tooLarge
  | invalid
  | len (n : Option Nat)
deriving DecidableEq, Repr

/-- The value text of a Content-Length line (ContentLengthFramer.cpp 48-54): split at the first colon, lower-case the
name, trim leading white space of the value. `none`: some other line. -/
def clenValue (line : Bytes) : Option Bytes :=
  match splitCh ':' line with
  | none => none
  | some (name, value) =>
    if name.map lowerCh = lit "content-length" then some (value.dropWhile isSpaceCh) else none

/-- ContentLengthFramer.cpp 42-70: the header loop. `acc` is `haveLength ? some contentLength : none`. -/
def scanLines (max : Nat) : Option Nat → List Bytes → Hdr
  | acc, [] => .len acc
  | acc, line :: ls =>
    match clenValue line with
    | none => scanLines max acc ls
    | some v =>
      match stoull v with
      | none => .invalid
      | some n => if n > max ∨ n > sizeMax then .tooLarge else scanLines max (some n) ls

/-- `DecodeResult`: status, payload, `bytesConsumed`. -/
inductive Dec where
  | incomplete
  | invalid (consumed : Nat)
  | tooLarge (consumed : Nat)
  | ok (payload : Bytes) (consumed : Nat)
deriving DecidableEq, Repr

/-- ContentLengthFramer.cpp 32-89, `tryDecodeEx`. -/
def tryDecodeEx (max : Nat) (buffer : Bytes) : Dec :=
  match splitSub sep buffer with
  | none => .incomplete
  | some (hdr, body) =>
    let hs := hdr.length + sep.length
    match scanLines max none (headerLines [] hdr) with
    | .tooLarge => .tooLarge hs
    | .invalid => .invalid hs
    | .len none => .invalid hs
    | .len (some n) =>
      if n > sizeMax - hs then .invalid hs
      else if buffer.length < hs + n then .incomplete
      else .ok (body.take n) (hs + n)

/-- ContentLengthFramer.cpp 91-100, `tryDecode`: the payload (if any) and the buffer afterwards. -/
def tryDecode (max : Nat) (buffer : Bytes) : Option Bytes × Bytes :=
  match tryDecodeEx max buffer with
  | .ok p k => (some p, if 0 < k ∧ k ≤ buffer.length then buffer.drop k else buffer)
  | _ => (none, buffer)

/-- State of the stdio reader: the accumulation buffer, the messages handed to `processMessage` so far, the
`connected` flag and the number of "body too large" errors reported. -/
structure Reader where
  buf : Bytes
  delivered : List Bytes
  connected : Bool
  errors : Nat
deriving DecidableEq

/-- StdioTransport.cpp 255-288, `drainFrames`. `stay` models the application: after the messages delivered so
far, is the transport still connected (a handler may close it, or its reply may overflow the write queue)?
Simplification: `connected` changes caused by other threads while the loop runs are not modelled. The loop is
fuel-indexed; `drainAll` supplies enough. -/
def drain (max : Nat) (stay : List Bytes → Bool) : Nat → Reader → Reader
  | 0, r => r
  | fuel + 1, r =>
    if r.connected = false then r
    else
      match tryDecodeEx max r.buf with
      | .incomplete => r
      | .ok p k =>
        drain max stay fuel
          { r with
            buf := if 0 < k ∧ k ≤ r.buf.length then r.buf.drop k else r.buf
            delivered := r.delivered ++ [p]
            connected := stay (r.delivered ++ [p]) }
      | .invalid k =>
        drain max stay fuel
          { r with buf := if 0 < k ∧ k ≤ r.buf.length then r.buf.drop k else r.buf.drop 1 }
      | .tooLarge _ => { r with connected := false, errors := r.errors + 1 }

/-- `drainFrames` with enough fuel (`Lemmas.drain_fuel`: more never matters). -/
def drainAll (max : Nat) (stay : List Bytes → Bool) (r : Reader) : Reader :=
  drain max stay (r.buf.length + 1) r

/-- One read of the read loop (e.g. StdioTransport.cpp 360-405 and the POSIX variants): while connected, append
the bytes and drain. -/
def feed (max : Nat) (stay : List Bytes → Bool) (r : Reader) (chunk : Bytes) : Reader :=
  if r.connected then drainAll max stay { r with buf := r.buf ++ chunk } else r

/-- A fresh reader (StdioTransport.cpp 1029-1033). -/
def Reader.init : Reader := { buf := [], delivered := [], connected := true, errors := 0 }

/-- The read loop over a sequence of chunks. -/
def feedAll (max : Nat) (stay : List Bytes → Bool) (chunks : List Bytes) : Reader :=
  chunks.foldl (feed max stay) Reader.init

end Verif.Framer
