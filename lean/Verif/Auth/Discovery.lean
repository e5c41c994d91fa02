import Verif.Json.Model
import Verif.Auth.Token

/-!
# Metadata discovery

src/mcp/auth/OAuthDiscovery.cpp, and `parseUrl` of src/mcp/auth/OAuthClient.cpp:25-55, which is the same function. A
GET is a function from the URL to status and body; the status is 0 when an exception was caught
(OAuthDiscovery.cpp:330-335). The exchange itself is not modelled beyond the choice of TLS, peer and target
(`connOf`), and the calls of the error handler are left out.
-/

namespace Verif
namespace Auth

/-- `UrlParts`, OAuthDiscovery.cpp:34-39. -/
structure UrlParts where
  scheme : Bytes
  host : Bytes
  port : Bytes
  path : Bytes
deriving DecidableEq

/-- The scheme and what follows it, OAuthDiscovery.cpp:44-51. -/
def urlScheme (url : Bytes) : Bytes × Bytes :=
  match splitSub (lit "://") url with
  | some (s, r) => (s, r)
  | none => (lit "http", url)

/-- Authority and path, OAuthDiscovery.cpp:52-60. -/
def urlSlash (rest : Bytes) : Bytes × Bytes :=
  match splitCh '/' rest with
  | none => (rest, lit "/")
  | some (a, p) => (a, '/' :: p)

/-- `parseUrlParts`, OAuthDiscovery.cpp:41-70, and `parseUrl`, OAuthClient.cpp:25-55. -/
def parseUrlParts (url : Bytes) : UrlParts :=
  let sr := urlScheme url
  let ap := urlSlash sr.2
  match splitCh ':' ap.1 with
  | none => { scheme := sr.1, host := ap.1, port := if sr.1 = lit "https" then lit "443" else lit "80", path := ap.2 }
  | some (h, p) => { scheme := sr.1, host := h, port := p, path := ap.2 }

/-- `getOrigin`, OAuthDiscovery.cpp:72-79. -/
def getOrigin (u : UrlParts) : Bytes :=
  if (u.scheme = lit "https" ∧ u.port ≠ lit "443") ∨ (u.scheme = lit "http" ∧ u.port ≠ lit "80") then
    u.scheme ++ lit "://" ++ u.host ++ ':' :: u.port
  else u.scheme ++ lit "://" ++ u.host

/-- `while (!path.empty() && path.back() == '/') path.pop_back();`, OAuthDiscovery.cpp:381-383 and 406-408. -/
def dropSlashes (path : Bytes) : Bytes := (path.reverse.dropWhile (fun c => c = '/')).reverse

/-- `basePath`, OAuthDiscovery.cpp:386-392: up to the last slash, unless that is the first character. -/
def basePathOf (path : Bytes) : Bytes :=
  match splitCh '/' path.reverse with
  | none => path
  | some (_, before) => if before = [] then path else before.reverse

/-- `buildWellKnownResourceMetadataUrls`, OAuthDiscovery.cpp:375-398. -/
def resourceUrls (baseUrl : Bytes) : List Bytes :=
  let u := parseUrlParts baseUrl
  let origin := getOrigin u
  let path := dropSlashes u.path
  (if path ≠ [] ∧ path ≠ lit "/" then [origin ++ lit "/.well-known/oauth-protected-resource" ++ basePathOf path] else [])
    ++ [origin ++ lit "/.well-known/oauth-protected-resource"]

/-- `buildAuthorizationServerMetadataUrls`, OAuthDiscovery.cpp:400-419. -/
def issuerUrls (issuerUrl : Bytes) : List Bytes :=
  let u := parseUrlParts issuerUrl
  let origin := getOrigin u
  let path := dropSlashes u.path
  if path ≠ [] ∧ path ≠ lit "/" then
    [origin ++ lit "/.well-known/oauth-authorization-server" ++ path, origin ++ lit "/.well-known/openid-configuration" ++ path,
      origin ++ path ++ lit "/.well-known/openid-configuration"]
  else [origin ++ lit "/.well-known/oauth-authorization-server", origin ++ lit "/.well-known/openid-configuration"]

/-- The character an escape stands for, OAuthDiscovery.cpp:96-107. -/
def unescCh (c : Char) : Char := if c = 'n' then '\n' else if c = 'r' then '\r' else if c = 't' then '\t' else c

/-- The loop of `parseJsonStringValue` after the opening quote, OAuthDiscovery.cpp:93-118: the text collected, and
what follows the closing quote (`none`: there is none, the function returns false). -/
def strValue : Bytes → Bytes × Option Bytes
  | [] => ([], none)
  | [c] => if c = '"' then ([], some []) else ([c], none)
  | c :: d :: r =>
    if c = '\\' then (unescCh d :: (strValue r).1, (strValue r).2)
    else if c = '"' then ([], some (d :: r))
    else (c :: (strValue (d :: r)).1, (strValue (d :: r)).2)

/-- From the name of a member to its value, common to the three readers (OAuthDiscovery.cpp:123-134, 140-151,
183-194): `none` where they return false. -/
def memberValue (json key : Bytes) : Option Bytes :=
  match splitSub (quotedKey key) json with
  | none => none
  | some (_, r) =>
    match skipWs r with
    | ':' :: r => some (skipWs r)
    | _ => none

/-- `parseJsonStringField`, OAuthDiscovery.cpp:121-136: the contents of `out`, which the callers use whatever the
function returns. -/
def docStr (json key : Bytes) : Bytes :=
  match memberValue json key with
  | some ('"' :: r) => (strValue r).1
  | _ => []

/-- The loop of `parseJsonStringArray`, OAuthDiscovery.cpp:156-179: the contents of `out`. Each round consumes a
character, so as many rounds as there are characters are enough. -/
def docItems : Nat → Bytes → List Bytes
  | 0, _ => []
  | fuel + 1, s =>
    match skipWs s with
    | ']' :: _ => []
    | ',' :: r =>
      match skipWs r with
      | '"' :: r =>
        match strValue r with
        | (v, some r) => v :: docItems fuel r
        | (_, none) => []
      | _ => []
    | '"' :: r =>
      match strValue r with
      | (v, some r) => v :: docItems fuel r
      | (_, none) => []
    | _ => []

/-- `parseJsonStringArray`, OAuthDiscovery.cpp:138-180: the contents of `out`. -/
def docList (json key : Bytes) : List Bytes :=
  match memberValue json key with
  | some ('[' :: r) => docItems (r.length + 1) r
  | _ => []

/-- `parseJsonBoolField`, OAuthDiscovery.cpp:182-204, on a member that starts as false. -/
def docBool (json key : Bytes) : Bool :=
  match memberValue json key with
  | some r => (lit "true").isPrefixOf r
  | none => false

/-- `ProtectedResourceMetadata`, OAuthDiscovery.hpp:23-29. -/
structure ResourceMeta where
  resource : Bytes
  authorizationServers : List Bytes
  scopesSupported : List Bytes
  bearerMethodsSupported : Bytes
  resourceDocumentation : Bytes
deriving DecidableEq

def ResourceMeta.empty : ResourceMeta := ⟨[], [], [], [], []⟩

/-- `parseProtectedResourceMetadata`, OAuthDiscovery.cpp:350-358. -/
def parseResourceMeta (json : Bytes) : Bool × ResourceMeta :=
  let out : ResourceMeta :=
    { resource := docStr json (lit "resource")
      authorizationServers := docList json (lit "authorization_servers")
      scopesSupported := docList json (lit "scopes_supported")
      bearerMethodsSupported := docStr json (lit "bearer_methods_supported")
      resourceDocumentation := docStr json (lit "resource_documentation") }
  (!out.authorizationServers.isEmpty, out)

/-- `AuthorizationServerMetadata`, OAuthDiscovery.hpp:35-46. -/
structure IssuerMeta where
  issuer : Bytes
  authorizationEndpoint : Bytes
  tokenEndpoint : Bytes
  registrationEndpoint : Bytes
  jwksUri : Bytes
  scopesSupported : List Bytes
  responseTypesSupported : List Bytes
  grantTypesSupported : List Bytes
  tokenEndpointAuthMethodsSupported : List Bytes
  clientIdMetadataDocumentSupported : Bool
deriving DecidableEq

def IssuerMeta.empty : IssuerMeta := ⟨[], [], [], [], [], [], [], [], [], false⟩

/-- `parseAuthorizationServerMetadata`, OAuthDiscovery.cpp:360-373. -/
def parseIssuerMeta (json : Bytes) : Bool × IssuerMeta :=
  let out : IssuerMeta :=
    { issuer := docStr json (lit "issuer")
      authorizationEndpoint := docStr json (lit "authorization_endpoint")
      tokenEndpoint := docStr json (lit "token_endpoint")
      registrationEndpoint := docStr json (lit "registration_endpoint")
      jwksUri := docStr json (lit "jwks_uri")
      scopesSupported := docList json (lit "scopes_supported")
      responseTypesSupported := docList json (lit "response_types_supported")
      grantTypesSupported := docList json (lit "grant_types_supported")
      tokenEndpointAuthMethodsSupported := docList json (lit "token_endpoint_auth_methods_supported")
      clientIdMetadataDocumentSupported := docBool json (lit "client_id_metadata_document_supported") }
  (!out.tokenEndpoint.isEmpty, out)

/-- What a GET gives: status (0 after an exception) and body, OAuthDiscovery.cpp:315-336. -/
abbrev Web := Bytes → Nat × Bytes

/-- The loops over the URLs, OAuthDiscovery.cpp:443-451 and 467-475: the document accepted, if any, and the URLs that
were asked for. -/
def probe {M : Type} (parse : Bytes → Bool × M) (web : Web) : List Bytes → Option M × List Bytes
  | [] => (none, [])
  | url :: urls =>
    if (web url).1 = 200 ∧ (web url).2 ≠ [] ∧ (parse (web url).2).1 = true then (some (parse (web url).2).2, [url])
    else ((probe parse web urls).1, url :: (probe parse web urls).2)

/-- `coHttpGet`, OAuthDiscovery.cpp:338-348: the body for any status from 200 to 299. -/
def getBody (web : Web) (url : Bytes) : Bytes := if 200 ≤ (web url).1 ∧ (web url).1 < 300 then (web url).2 else []

/-- `coDiscoverProtectedResourceMetadata`, OAuthDiscovery.cpp:421-457, with the URLs that were asked for. -/
def discoverResource (web : Web) (resourceMetadataUrl serverUrl : Bytes) : ResourceMeta × List Bytes :=
  if resourceMetadataUrl ≠ [] ∧ getBody web resourceMetadataUrl ≠ [] ∧ (parseResourceMeta (getBody web resourceMetadataUrl)).1 = true then
    ((parseResourceMeta (getBody web resourceMetadataUrl)).2, [resourceMetadataUrl])
  else
    let r := probe parseResourceMeta web (resourceUrls serverUrl)
    (r.1.getD .empty, (if resourceMetadataUrl ≠ [] then [resourceMetadataUrl] else []) ++ r.2)

/-- `coDiscoverAuthorizationServerMetadata`, OAuthDiscovery.cpp:459-481, with the URLs that were asked for. -/
def discoverIssuer (web : Web) (issuerUrl : Bytes) : IssuerMeta × List Bytes :=
  let r := probe parseIssuerMeta web (issuerUrls issuerUrl)
  (r.1.getD .empty, r.2)

/-- The connection of a request: whether TLS is used, the name the certificate is checked against, the peer and the
target. -/
structure Conn where
  tls : Bool
  certName : Bytes
  host : Bytes
  port : Bytes
  target : Bytes
deriving DecidableEq

/-- `coHttpGetWithStatus`, `doHttpsGet` and `doHttpGet`, OAuthDiscovery.cpp:245-336, and `coPostFormUrlencoded`,
OAuthClient.cpp:57-168: TLS iff the scheme is the text `https`, the certificate checked against `serverName` or else
the host. -/
def connOf (serverName url : Bytes) : Conn :=
  let u := parseUrlParts url
  if u.scheme = lit "https" then
    { tls := true, certName := if serverName = [] then u.host else serverName, host := u.host, port := u.port, target := u.path }
  else { tls := false, certName := [], host := u.host, port := u.port, target := u.path }

end Auth
end Verif
