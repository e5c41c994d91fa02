import Verif.Base.Bytes
import Verif.Base.AMap

/-!
Model of the WWW-Authenticate header: the parser of the client, `parseWwwAuthenticate` (src/mcp/auth/WwwAuthenticate.cpp 71-163), and
the header the server writes, in `enforceAuthAndScope` (src/mcp/HTTPServer.cpp 658-691).

An index into the header is represented by the rest of the header from there on. The loop over the parameters gets fuel; that it ends
by itself is a theorem.
-/

namespace Verif.Http

/-- `s[i] == ' ' || s[i] == '\t'`. -/
def isBlank (c : Char) : Bool := c = ' ' || c = '\t'

/-- `skipSpaces`, 21-25. -/
def skipBlanks (s : Bytes) : Bytes := s.dropWhile isBlank

/-- The characters that end a token, 32. -/
def endsToken (c : Char) : Bool := c = ' ' || c = '\t' || c = '=' || c = ',' || c = '"'

/-- `parseToken`, 27-42: the token (empty: failure) and the rest. -/
def parseToken : Bytes → Bytes × Bytes
  | [] => ([], [])
  | c :: s => if endsToken c then ([], c :: s) else (c :: (parseToken s).1, (parseToken s).2)

/-- The loop of `parseQuotedString`, 50-68, after the opening quote; `none` is `false`. -/
def quotedRest : Bytes → Option (Bytes × Bytes)
  | [] => none
  | '\\' :: c :: s => (quotedRest s).map (fun p => (c :: p.1, p.2))
  | ['\\'] => none
  | '"' :: s => some ([], s)
  | c :: s => (quotedRest s).map (fun p => (c :: p.1, p.2))

/-- The unquoted value up to the next comma, 136-140. -/
def upToComma : Bytes → Bytes × Bytes
  | [] => ([], [])
  | c :: s => if c = ',' then ([], c :: s) else (c :: (upToComma s).1, (upToComma s).2)

/-- The two trims, 141-152. -/
def trimBlanks (s : Bytes) : Bytes := skipBlanks ((s.reverse.dropWhile isBlank).reverse)

/-- What one round of the loop does. -/
inductive Round where
  | stop
  | bad
  | param (key value rest : Bytes)

/-- `out.params[key] = ...` with a lower-case key, 113-116. -/
def lowerKey (k : Bytes) : Bytes := k.map lowerCh

/-- The value, 126-155, from the character after `=`. -/
def parseValue (key s : Bytes) : Round :=
  match skipBlanks s with
  | '"' :: r => match quotedRest r with | some (v, r') => .param key v (skipBlanks r') | none => .bad
  | r => .param key (trimBlanks (upToComma r).1) (skipBlanks (upToComma r).2)

/-- The separators at the start of a round, 97-102. -/
def skipSeparator (s : Bytes) : Bytes :=
  match s with
  | ',' :: r => skipBlanks (skipBlanks r)
  | _ => skipBlanks s

/-- After a key, 118-125. -/
def afterKeyword (key s : Bytes) : Round :=
  match skipBlanks s with
  | '=' :: r => parseValue key r
  | r => .param key [] r

/-- One round, 97-159, at a position before the end. -/
def round (s : Bytes) : Round :=
  let s := skipSeparator s
  if s = [] then .stop
  else if (parseToken s).1 = [] then .stop
  else afterKeyword (lowerKey (parseToken s).1) (parseToken s).2

/-- The loop, 96-160. `none`: out of fuel; `some none`: `false`. -/
def params : Nat → Bytes → List (Bytes × Bytes) → Option (Option (List (Bytes × Bytes)))
  | 0, _, _ => none
  | fuel + 1, s, acc =>
    if s = [] then some (some acc)
    else
      match round s with
      | .stop => some (some acc)
      | .bad => some none
      | .param k v r => params fuel r (AMap.put acc k v)

/-- `parseWwwAuthenticate`, 71-163; the parameters on success. `out.scheme` is then "bearer". -/
def parseChallenge (fuel : Nat) (header : Bytes) : Option (Option (List (Bytes × Bytes))) :=
  let s := skipBlanks header
  if (parseToken s).1 = [] then some none
  else if lowerKey (parseToken s).1 ≠ lit "bearer" then some none
  else params fuel (skipBlanks (parseToken s).2) []

/-! ### The header of the server -/

/-- `joinScopes`, HTTPServer.cpp 659-666. -/
def joinScopes : List Bytes → Bytes
  | [] => []
  | [s] => s
  | s :: r => s ++ lit " " ++ joinScopes r

/-- `quote`, 667-677. -/
def quoteBody : Bytes → Bytes
  | [] => []
  | c :: s => if c = '\\' ∨ c = '"' then '\\' :: c :: quoteBody s else c :: quoteBody s
def quote (s : Bytes) : Bytes := '"' :: quoteBody s ++ ['"']

/-- The WWW-Authenticate header, 679-692, for a status, the options and the message of the check. -/
def challengeFor (status : Nat) (url : Bytes) (scopes : List Bytes) (message : Bytes) : Bytes :=
  lit "Bearer resource_metadata=" ++ url ++
    (if status = 403 then
      lit ", error=" ++ quote (lit "insufficient_scope") ++
        (if scopes = [] then [] else lit ", scope=" ++ quote (joinScopes scopes)) ++
        (if message = [] then [] else lit ", error_description=" ++ quote message)
    else if scopes = [] then [] else lit ", scope=" ++ quote (joinScopes scopes))

end Verif.Http
