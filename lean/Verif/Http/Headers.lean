import Verif.Base.Bytes

/-!
Model of the checks of the Host, Origin and MCP-Protocol-Version headers, src/mcp/HTTPServer.cpp 226-361.

Boost's `make_address(text).is_loopback()` (false on a text that is not an address) is a parameter `loopback`. A header that is absent is
the empty text, as with `req[...]`.
-/

namespace Verif.Http

/-- `toLowerAscii`, 226-231. -/
def lowerText (s : Bytes) : Bytes := s.map lowerCh

/-- `trimCopy`, 233-238. -/
def trimText (s : Bytes) : Bytes := (((s.dropWhile isSpaceCh).reverse).dropWhile isSpaceCh).reverse

/-- `shouldValidateDnsRebinding`, 240-248. -/
def guardsLocal (loopback : Bytes → Bool) (address : Bytes) : Bool :=
  let a := trimText (lowerText address)
  if a = lit "localhost" then true else loopback a

/-- `extractAuthorityHost`, 250-268. -/
def authorityHost (v : Bytes) : Bytes :=
  let a := trimText v
  if a = [] then []
  else if a.head? = some '[' then
    match splitCh ']' a with
    | none => []
    | some (before, _) => before.drop 1
  else
    match splitCh ':' a with
    | none => a
    | some (before, after) => if ':' ∈ after then a else before

/-- `isLocalAuthorityHost`, 270-281. -/
def isLocalHost (loopback : Bytes → Bool) (v : Bytes) : Bool :=
  let h := lowerText (trimText v)
  if h = [] then false
  else if h = lit "localhost" then true
  else loopback h

/-- `extractOriginHost`, 283-296. -/
def originHost (v : Bytes) : Option Bytes :=
  let o := trimText v
  if o = [] then some []
  else
    match splitSub (lit "://") o with
    | none => none
    | some (_, rest) =>
      match splitCh '/' rest with
      | none => some (authorityHost rest)
      | some (authority, _) => some (authorityHost authority)

/-- `validateLocalHeaders`, 298-325: the body of the refusal (403), or nothing. -/
def localHeaders (loopback : Bytes → Bool) (address host origin : Bytes) : Option Bytes :=
  if !guardsLocal loopback address then none
  else if !isLocalHost loopback (authorityHost host) then some (lit "{\"error\":\"Forbidden Host header\"}")
  else if origin = [] then none
  else
    match originHost origin with
    | none => some (lit "{\"error\":\"Forbidden Origin header\"}")
    | some h => if isLocalHost loopback h then none else some (lit "{\"error\":\"Forbidden Origin header\"}")

/-- `PROTOCOL_VERSION`, include/mcp/Protocol.h 23. -/
def currentVersion : Bytes := lit "2025-11-25"

/-- `validateProtocolHeader`, 327-361, with the version of the session. -/
def versionAccepted (expected header : Bytes) : Bool :=
  if header = [] then true
  else if header = expected then true
  else decide (expected = currentVersion) && (header = lit "2025-03-26" || header = lit "2025-06-18" || header = currentVersion)

end Verif.Http
