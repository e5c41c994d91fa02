import Verif.Json.Model
import Verif.Auth.Form

/-!
# The cached token of OAuth2ClientCredentialsAuth

src/mcp/auth/OAuth2ClientCredentialsAuth.cpp:32-162. `ensureReady` is a coroutine with one suspension point, the
fetch: a call is the step `ensure` (the check under the mutex, 108-114, and the start of the fetch, 116-130) and,
when it fetches, a later step `reply` (131-155) with whatever `coPostFormUrlencoded` returned: the response body
whatever the HTTP status, or the empty string when an exception was caught (OAuthClient.cpp:57-168). Any number of
calls may be in flight, and time passes by `tick`. The clock is a natural number of nanoseconds; the overflow of
`steady_clock` is not modelled. The exchange itself (name resolution, TLS, sockets) is not modelled, and the calls of
`onError` are left out.
-/

namespace Verif
namespace Auth

/-- `"\"" + key + "\""`, OAuth2ClientCredentialsAuth.cpp:34. -/
def quotedKey (key : Bytes) : Bytes := '"' :: key ++ ['"']

/-- The loop for the closing quote, OAuth2ClientCredentialsAuth.cpp:47-57; the first argument is `json[q2 - 1]`. -/
def scanQuote : Char → Bytes → Option Bytes
  | _, [] => none
  | prev, c :: r => if c = '"' ∧ prev ≠ '\\' then some [] else (scanQuote c r).map (fun t => c :: t)

/-- `parseJsonStringField`, OAuth2ClientCredentialsAuth.cpp:32-59. -/
def tokenStr (json key : Bytes) : Option Bytes :=
  match splitSub (quotedKey key) json with
  | none => none
  | some (_, r) =>
    match splitCh ':' r with
    | none => none
    | some (_, r) =>
      match splitCh '"' r with
      | none => none
      | some (_, r) => scanQuote '"' r

/-- `std::stoi` on a run of digits and minus signs, OAuth2ClientCredentialsAuth.cpp:80: an optional sign, the
digits after it, `none` for the two exceptions (no digit, out of the range of `int`). -/
def stoiRun (s : Bytes) : Option Int :=
  match stollSigned (takeSign s).1 (takeDigits (takeSign s).2).1 with
  | none => none
  | some i => if -(2 ^ 31) ≤ i ∧ i < 2 ^ 31 then some i else none

/-- `parseJsonIntField`, OAuth2ClientCredentialsAuth.cpp:61-85. -/
def tokenInt (json key : Bytes) : Option Int :=
  match splitSub (quotedKey key) json with
  | none => none
  | some (_, r) =>
    match splitCh ':' r with
    | none => none
    | some (_, r) => stoiRun ((skipWs r).takeWhile (fun c => isDig c || c = '-'))

/-- One second of the clock. -/
def second : Nat := 1000000000

/-- The lifetime given to a fetched token, OAuth2ClientCredentialsAuth.cpp:139-143. -/
def lifetime (resp : Bytes) : Nat :=
  match tokenInt resp (lit "expires_in") with
  | some i => if 0 < i then i.toNat * second else 3600 * second
  | none => 3600 * second

/-- Where a call of `ensureReady` is. -/
inductive TkStage where
  | fetching
  | over
deriving DecidableEq

/-- A call that has returned (not in the code: what was true at that moment). -/
structure TkEnd where
  call : Nat
  time : Nat
  /-- token and expiry held when the call returned -/
  token : Bytes
  expiry : Nat
  /-- token and expiry held just before -/
  wasToken : Bytes
  wasExpiry : Nat
  /-- the reply to the fetch of this call, if it made one -/
  got : Option Bytes

/-- The object: the clock, `cachedAccessToken`, `tokenExpiry` and the calls in flight; `ends` is a history. -/
structure Tk where
  now : Nat
  token : Bytes
  expiry : Nat
  calls : List TkStage
  ends : List TkEnd

/-- The constructed object, OAuth2ClientCredentialsAuth.cpp:87-105 with the member initialisers of the header; `t`
is the reading of the clock. -/
def Tk.init (t : Nat) : Tk := { now := t, token := [], expiry := 0, calls := [], ends := [] }

inductive TkOp where
  | tick (d : Nat)
  | ensure
  | reply (call : Nat) (resp : Bytes)

/-- The check of OAuth2ClientCredentialsAuth.cpp:111. -/
def Tk.fresh (skew : Nat) (s : Tk) : Bool := !s.token.isEmpty && decide (s.now + skew * second < s.expiry)

/-- The end of the call `c` with the given token and expiry. -/
def Tk.finish (s : Tk) (c : Nat) (token : Bytes) (expiry : Nat) (got : Option Bytes) : Tk :=
  { s with
    token := token
    expiry := expiry
    ends := s.ends ++ [{ call := c, time := s.now, token := token, expiry := expiry, wasToken := s.token,
                         wasExpiry := s.expiry, got := got }] }

/-- `ensureReady`, OAuth2ClientCredentialsAuth.cpp:107-156; see the head of this file. -/
def Tk.step (skew : Nat) (s : Tk) : TkOp → Tk
  | .tick d => { s with now := s.now + d }
  | .ensure =>
    if s.fresh skew then
      { s.finish s.calls.length s.token s.expiry none with calls := s.calls ++ [.over] }
    else { s with calls := s.calls ++ [.fetching] }
  | .reply c resp =>
    if s.calls[c]? = some .fetching then
      let s := { s with calls := s.calls.set c .over }
      if resp = [] then s.finish c s.token s.expiry (some resp)
      else
        match tokenStr resp (lit "access_token") with
        | some t => s.finish c t (s.now + lifetime resp) (some resp)
        | none => s.finish c s.token s.expiry (some resp)
    else s

def Tk.run (skew : Nat) (s : Tk) (ops : List TkOp) : Tk := ops.foldl (Tk.step skew) s

/-- `headers`, OAuth2ClientCredentialsAuth.cpp:158-162. -/
def Tk.headers (s : Tk) : List (Bytes × Bytes) :=
  if s.token = [] then [] else [(lit "Authorization", lit "Bearer " ++ s.token)]

end Auth
end Verif
