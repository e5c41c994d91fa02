import Verif.Base.Bytes

/-!
Model of the JSON value type, serialiser and parser
(`/repo/src/mcp/JSONParser.cpp`, `/repo/include/mcp/JSONRPCTypes.h`).
-/

namespace Verif

/-- `JSONValue` (`include/mcp/JSONRPCTypes.h`, the variant `null, bool, int64, double, string, Array, Object`).
Simplifications: `int` is an unbounded `Int` (theorems state the 64-bit range where it matters); `D` stands for
`double`; an object is the list of its members in `unordered_map` iteration order. -/
inductive JVal (D : Type) where
  | null
  | bool (b : Bool)
  | int (i : Int)
  | dbl (d : D)
  | str (s : Bytes)
  | arr (l : List (JVal D))
  | obj (m : List (Bytes × JVal D))

/-- The C library's double formatting: `std::to_string(double)` (JSONParser.cpp:228) and
`std::stod` (JSONParser.cpp:153, `none` = exception). Parameters of the model. -/
class DblFmt (D : Type) where
  print : D → Bytes
  parse : Bytes → Option D

/-- Is `i` in the range of `int64_t`? -/
def Int64OK (i : Int) : Prop := -(2 ^ 63) ≤ i ∧ i < 2 ^ 63

instance (i : Int) : Decidable (Int64OK i) := by unfold Int64OK; infer_instance

section serialize

/-- Lower-case hex digit (`std::hex`). -/
def hexDigit (n : Nat) : Char := if n < 10 then Char.ofNat (48 + n) else Char.ofNat (87 + n)

/-- One character of a JSON string: JSONParser.cpp:232-249. `char` is signed, so the test
`c >= 0 && c < 32` is "code below 32". -/
def escCh (c : Char) : Bytes :=
  if c = '"' then ['\\', '"']
  else if c = '\\' then ['\\', '\\']
  else if c.toNat = 8 then ['\\', 'b']
  else if c.toNat = 12 then ['\\', 'f']
  else if c = '\n' then ['\\', 'n']
  else if c = '\r' then ['\\', 'r']
  else if c = '\t' then ['\\', 't']
  else if c.toNat < 32 then ['\\', 'u', '0', '0', hexDigit (c.toNat / 16), hexDigit (c.toNat % 16)]
  else [c]

/-- Body of a serialised string. JSONParser.cpp:232-249. -/
def escStr : Bytes → Bytes
  | [] => []
  | c :: cs => escCh c ++ escStr cs

/-- Serialised string value. JSONParser.cpp:229-251. -/
def serStr (s : Bytes) : Bytes := '"' :: (escStr s ++ ['"'])

variable {D : Type} [DblFmt D]

mutual
/-- `serializeJSONValue`, JSONParser.cpp:217-277. -/
def ser : JVal D → Bytes
  | .null => lit "null"
  | .bool true => lit "true"
  | .bool false => lit "false"
  | .int i => intDec i
  | .dbl d => DblFmt.print d
  | .str s => serStr s
  | .arr l => '[' :: (serList l ++ [']'])
  | .obj m => '{' :: (serFields m ++ ['}'])
/-- Comma separated array elements, JSONParser.cpp:255-258. -/
def serList : List (JVal D) → Bytes
  | [] => []
  | [v] => ser v
  | v :: w :: r => ser v ++ ',' :: serList (w :: r)
/-- Comma separated members, JSONParser.cpp:264-269. The key is written raw (line 268), without escaping. -/
def serFields : List (Bytes × JVal D) → Bytes
  | [] => []
  | [(k, v)] => '"' :: k ++ '"' :: ':' :: ser v
  | (k, v) :: w :: r => '"' :: k ++ '"' :: ':' :: (ser v ++ ',' :: serFields (w :: r))
end

end serialize

section parse

/-- Outcome of a parser call: a value and the unread text, a C++ exception, or (model only) fuel exhausted.
`fuel` is proved unreachable from `parseJson`. -/
inductive PR (α : Type) where
  | ok (a : α) (rest : Bytes)
  | throw
  | fuel
  deriving DecidableEq

def PR.map {α β : Type} (f : α → β) : PR α → PR β
  | .ok a r => .ok (f a) r
  | .throw => .throw
  | .fuel => .fuel

/-- Whitespace accepted by the parser, JSONParser.cpp:55. -/
def isWs (c : Char) : Bool := c = ' ' || c = '\t' || c = '\r' || c = '\n'

/-- `skipWs`, JSONParser.cpp:52-57. -/
def skipWs : Bytes → Bytes
  | [] => []
  | c :: cs => if isWs c then skipWs cs else c :: cs

/-- One hex digit, JSONParser.cpp:100-103 (`none` = exception). -/
def hexVal (h : Char) : Option Nat :=
  if '0'.toNat ≤ h.toNat ∧ h.toNat ≤ '9'.toNat then some (h.toNat - '0'.toNat)
  else if 'a'.toNat ≤ h.toNat ∧ h.toNat ≤ 'f'.toNat then some (10 + (h.toNat - 'a'.toNat))
  else if 'A'.toNat ≤ h.toNat ∧ h.toNat ≤ 'F'.toNat then some (10 + (h.toNat - 'A'.toNat))
  else none

/-- Four hex digits, JSONParser.cpp:97-104. -/
def hex4 (a b c d : Char) : Option Nat :=
  match hexVal a, hexVal b, hexVal c, hexVal d with
  | some a, some b, some c, some d => some (((a * 16 + b) * 16 + c) * 16 + d)
  | _, _, _, _ => none

/-- UTF-8 bytes of a code point below 0x10000, JSONParser.cpp:105-120 (no surrogate handling). -/
def utf8 (code : Nat) : Bytes :=
  if code ≤ 0x7F then [Char.ofNat code]
  else if code ≤ 0x7FF then [Char.ofNat (0xC0 + code / 64 % 32), Char.ofNat (0x80 + code % 64)]
  else [Char.ofNat (0xE0 + code / 4096 % 16), Char.ofNat (0x80 + code / 64 % 64), Char.ofNat (0x80 + code % 64)]

/-- The one-character escapes, JSONParser.cpp:83-90 (`none`: "Unknown escape", line 123). -/
def simpleEsc (e : Char) : Option Char :=
  if e = '"' then some '"'
  else if e = '\\' then some '\\'
  else if e = '/' then some '/'
  else if e = 'b' then some (Char.ofNat 8)
  else if e = 'f' then some (Char.ofNat 12)
  else if e = 'n' then some '\n'
  else if e = 'r' then some '\r'
  else if e = 't' then some '\t'
  else none

/-- The loop of `parseString` after the opening quote, JSONParser.cpp:72-129.
Note that reaching the end of the input without a closing quote is accepted. -/
def strBody : Bytes → PR Bytes
  | [] => .ok [] []
  | c :: rest =>
    if c = '"' then .ok [] rest
    else if c = '\\' then
      match rest with
      | [] => .throw
      | e :: rest' =>
        if e = 'u' then
          match rest' with
          | h1 :: h2 :: h3 :: h4 :: rest'' =>
            match hex4 h1 h2 h3 h4 with
            | none => .throw
            | some code => (strBody rest'').map (utf8 code ++ ·)
          | _ => .throw
        else
          match simpleEsc e with
          | none => .throw
          | some ch => (strBody rest').map (ch :: ·)
    else (strBody rest).map (c :: ·)

/-- `parseString`, JSONParser.cpp:67-130. -/
def parseString (s : Bytes) : PR Bytes :=
  match skipWs s with
  | '"' :: rest => strBody rest
  | _ => .throw

/-- An optional sign, JSONParser.cpp:135 and 144. -/
def takeSign : Bytes → Bytes × Bytes
  | [] => ([], [])
  | c :: cs => if c = '-' ∨ c = '+' then ([c], cs) else ([], c :: cs)

/-- A maximal run of digits, JSONParser.cpp:136. -/
def takeDigits : Bytes → Bytes × Bytes
  | [] => ([], [])
  | c :: cs => if isDig c then (c :: (takeDigits cs).1, (takeDigits cs).2) else ([], c :: cs)

/-- Optional fraction, JSONParser.cpp:138-141. The `Bool` says whether it was present. -/
def takeFrac : Bytes → Bool × Bytes × Bytes
  | '.' :: cs => (true, '.' :: (takeDigits cs).1, (takeDigits cs).2)
  | s => (false, [], s)

/-- Optional exponent, JSONParser.cpp:142-146. -/
def takeExp : Bytes → Bool × Bytes × Bytes
  | [] => (false, [], [])
  | c :: cs =>
    if c = 'e' ∨ c = 'E' then
      let sg := takeSign cs
      let ds := takeDigits sg.2
      (true, c :: (sg.1 ++ ds.1), ds.2)
    else (false, [], c :: cs)

/-- `std::stoll` on text of the form sign? digits* (the only form that reaches it, JSONParser.cpp:150):
`none` when there is no digit (`invalid_argument`) or the value is not an `int64_t` (`out_of_range`). -/
def stollSigned (sign digits : Bytes) : Option Int :=
  if digits = [] then none
  else
    let m : Int := digitsVal digits
    let v := if sign = ['-'] then -m else m
    if Int64OK v then some v else none

variable {D : Type} [DblFmt D]

/-- `parseNumber`, JSONParser.cpp:132-159, after whitespace was skipped. Never throws: bad numbers become null
(possibly consuming nothing). -/
def parseNumber (s : Bytes) : JVal D × Bytes :=
  let sg := takeSign s
  let ds := takeDigits sg.2
  let fr := takeFrac ds.2
  let ex := takeExp fr.2.2
  if fr.1 = false ∧ ex.1 = false then
    match stollSigned sg.1 ds.1 with
    | some v => (.int v, ex.2.2)
    | none => (.null, ex.2.2)
  else
    match DblFmt.parse (sg.1 ++ ds.1 ++ fr.2.1 ++ ex.2.1) with
    | some d => (.dbl d, ex.2.2)
    | none => (.null, ex.2.2)

/-- `obj[key] = value` on an `unordered_map` (JSONParser.cpp:186): overwrite or add. -/
def putKey {α : Type} (k : Bytes) (v : α) : List (Bytes × α) → List (Bytes × α)
  | [] => [(k, v)]
  | (k', v') :: r => if k' = k then (k, v) :: r else (k', v') :: putKey k v r

/-- Keyword or number, JSONParser.cpp:201-211. -/
def parseScalar (s : Bytes) : JVal D × Bytes :=
  if (lit "true").isPrefixOf s then (.bool true, s.drop 4)
  else if (lit "false").isPrefixOf s then (.bool false, s.drop 5)
  else if (lit "null").isPrefixOf s then (.null, s.drop 4)
  else parseNumber s

mutual
/-- `parseValue`, JSONParser.cpp:194-212; `parseObject`'s and `parseArray`'s entry (161-165, 176-180) are inlined. -/
def parseValue : Nat → Bytes → PR (JVal D)
  | 0, _ => .fuel
  | n + 1, s =>
    match skipWs s with
    | [] => .throw
    | c :: cs =>
      if c = '"' then (strBody cs).map .str
      else if c = '{' then
        match skipWs cs with
        | '}' :: r => .ok (.obj []) r
        | cs' => objLoop n [] cs'
      else if c = '[' then
        match skipWs cs with
        | ']' :: r => .ok (.arr []) r
        | cs' => (arrLoop n cs').map .arr
      else .ok (parseScalar (c :: cs)).1 (parseScalar (D := D) (c :: cs)).2
/-- The loop of `parseArray`, JSONParser.cpp:166-172. -/
def arrLoop : Nat → Bytes → PR (List (JVal D))
  | 0, _ => .fuel
  | n + 1, s =>
    match parseValue n s with
    | .throw => .throw
    | .fuel => .fuel
    | .ok v r =>
      match skipWs r with
      | ']' :: r' => .ok [v] r'
      | ',' :: r' => (arrLoop n r').map (v :: ·)
      | _ => .throw
/-- The loop of `parseObject`, JSONParser.cpp:181-190. -/
def objLoop : Nat → List (Bytes × JVal D) → Bytes → PR (JVal D)
  | 0, _, _ => .fuel
  | n + 1, acc, s =>
    match parseString s with
    | .throw => .throw
    | .fuel => .fuel
    | .ok k r =>
      match skipWs r with
      | ':' :: r' =>
        match parseValue n r' with
        | .throw => .throw
        | .fuel => .fuel
        | .ok v r'' =>
          match skipWs r'' with
          | '}' :: r3 => .ok (.obj (putKey k v acc)) r3
          | ',' :: r3 => objLoop n (putKey k v acc) r3
          | _ => .throw
      | _ => .throw
end

/-- A full `JsonParser(json, start).parseValue()` call. -/
def parseJson (s : Bytes) : PR (JVal D) := parseValue (2 * s.length + 2) s

end parse

/-- Member lookup: `obj.find(key)`. -/
def getKey {α : Type} (k : Bytes) : List (Bytes × α) → Option α
  | [] => none
  | (k', v) :: r => if k' = k then some v else getKey k r

end Verif
