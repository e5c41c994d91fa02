import Verif.Base.Bytes

/-!
# The token request body

src/mcp/auth/OAuth2ClientCredentialsAuth.cpp:15-30 and 116-120. A `std::string` is a list of bytes; as
everywhere in this model a byte is a `Char` with a code below 256 (`IsByte`).
-/

namespace Verif
namespace Auth

/-- The characters kept as they are, OAuth2ClientCredentialsAuth.cpp:19. -/
def formKept (c : Char) : Bool :=
  decide ('A'.toNat ≤ c.toNat ∧ c.toNat ≤ 'Z'.toNat) || decide ('a'.toNat ≤ c.toNat ∧ c.toNat ≤ 'z'.toNat)
    || decide ('0'.toNat ≤ c.toNat ∧ c.toNat ≤ '9'.toNat) || c = '-' || c = '_' || c = '.' || c = '~'

/-- `hex[d]` for `hex = "0123456789ABCDEF"`, OAuth2ClientCredentialsAuth.cpp:25-26. -/
def hexUp (d : Nat) : Char := if d < 10 then Char.ofNat ('0'.toNat + d) else Char.ofNat ('A'.toNat + (d - 10))

/-- One turn of the loop of `urlEncodeForm`, OAuth2ClientCredentialsAuth.cpp:18-27. -/
def formCh (c : Char) : Bytes :=
  if formKept c then [c]
  else if c = ' ' then ['+']
  else ['%', hexUp (c.toNat / 16 % 16), hexUp (c.toNat % 16)]

/-- `urlEncodeForm`, OAuth2ClientCredentialsAuth.cpp:15-30. -/
def urlEncodeForm (s : Bytes) : Bytes := s.flatMap formCh

/-- The configured credentials, constructor arguments of OAuth2ClientCredentialsAuth.cpp:87-105. -/
structure Credentials where
  clientId : Bytes
  clientSecret : Bytes
  scope : Bytes

/-- `if (!x.empty()) form << "&name=" << urlEncodeForm(x)`, OAuth2ClientCredentialsAuth.cpp:118-120. -/
def formField (name : Bytes) (v : Bytes) : Bytes :=
  if v = [] then [] else '&' :: name ++ '=' :: urlEncodeForm v

/-- The form of `ensureReady`, OAuth2ClientCredentialsAuth.cpp:116-120. -/
def tokenForm (c : Credentials) : Bytes :=
  lit "grant_type=client_credentials" ++ formField (lit "client_id") c.clientId
    ++ formField (lit "client_secret") c.clientSecret ++ formField (lit "scope") c.scope

end Auth
end Verif
