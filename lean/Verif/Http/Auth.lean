import Verif.Base.Bytes

/-!
Model of the bearer check of the server, src/mcp/auth/ServerAuth.cpp, and of the two setters of HTTPServer.cpp 1162-1174.

A token verifier is any function from the token to a verdict; that it may keep state between calls is not modelled. Times are counts of
the system clock (its unit does not matter), zero being the epoch.
-/

namespace Verif.Http

/-- `TokenInfo`, ServerAuth.hpp 22-26. -/
structure TokenInfo where
  scopes : List Bytes
  expiration : Int
  extra : List (Bytes × Bytes)
  deriving DecidableEq

/-- What `Verify` did: returned true with an info, false with a message, or threw. -/
inductive Verdict where
  | good (info : TokenInfo)
  | refused (message : Bytes)
  | threw
  deriving DecidableEq

/-- `RequireBearerTokenOptions`, ServerAuth.hpp 44-49. -/
structure BearerOpts where
  resourceMetadataUrl : Bytes
  requiredScopes : List Bytes
  authorizationServers : List Bytes
  scopesSupported : List Bytes
  deriving DecidableEq

/-- `BearerCheckResult` and `outInfo`; `includeWWWAuthenticate` is true on every refusal. -/
inductive Check where
  | passed (info : TokenInfo)
  | refused (status : Nat) (message : Bytes)
  | threw
  deriving DecidableEq

/-- `startsWithBearer`, 26-37. -/
def startsWithBearer (s : Bytes) : Bool :=
  if s.length < 7 then false else decide ((s.take 7).map lowerCh = (lit "Bearer ").map lowerCh)

/-- The token, 92-96. -/
def tokenOf (header : Bytes) : Bytes := (header.drop 7).dropWhile isSpaceCh

/-- `containsAllScopes`, 39-54. -/
def containsAllScopes (have_ need : List Bytes) : Bool := need.all (fun s => have_.any (fun h => h = s))

/-- The checks after the verification, 116-148. -/
def checkInfo (opts : BearerOpts) (now : Int) (info : TokenInfo) : Check :=
  if !opts.requiredScopes.isEmpty && !containsAllScopes info.scopes opts.requiredScopes then .refused 403 (lit "insufficient scope")
  else if info.expiration = 0 then .refused 401 (lit "token missing expiration")
  else if info.expiration ≤ now then .refused 401 (lit "token expired")
  else .passed info

/-- `CheckBearerAuth`, 69-149. -/
def checkBearer (verify : Bytes → Verdict) (opts : BearerOpts) (now : Int) (header : Bytes) : Check :=
  if header = [] then .refused 401 (lit "no bearer token")
  else if !startsWithBearer header then .refused 401 (lit "no bearer token")
  else if tokenOf header = [] then .refused 401 (lit "no bearer token")
  else
    match verify (tokenOf header) with
    | .threw => .threw
    | .refused err => .refused 401 (if err = [] then lit "invalid token" else err)
    | .good info => checkInfo opts now info

/-- The authentication settings of the server, HTTPServer.cpp 79-82. -/
structure AuthCfg where
  verifier : Option (Bytes → Verdict)
  opts : BearerOpts
  enabled : Bool

def AuthCfg.init : AuthCfg := ⟨none, ⟨[], [], [], []⟩, false⟩

/-- `SetProtectedResourceMetadata`, 1162-1167. -/
def AuthCfg.setMetadata (a : AuthCfg) (o : BearerOpts) : AuthCfg :=
  { a with opts := ⟨o.resourceMetadataUrl, o.requiredScopes, o.authorizationServers, o.scopesSupported⟩ }

/-- `SetBearerAuth`, 1169-1174. -/
def AuthCfg.setBearer (a : AuthCfg) (v : Bytes → Verdict) (o : BearerOpts) : AuthCfg :=
  { a with verifier := some v, opts := o, enabled := true }

/-- `enforceAuthAndScope`, 640-650: the check made of a request with this Authorization header; `none` when nothing is checked. -/
def AuthCfg.check (a : AuthCfg) (now : Int) (header : Bytes) : Option Check :=
  if !a.enabled then none
  else
    match a.verifier with
    | none => none
    | some v => some (checkBearer v a.opts now header)

end Verif.Http
