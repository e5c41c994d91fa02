import Verif.Framer.Model

/-!
Model of the configuration strings: what the factories of the transports and of the HTTP server read in them, and which ports the
HTTP server accepts. The transports made from the settings are modelled elsewhere; sockets, certificates and name resolution are not.
-/

namespace Verif.Config

/-! ### Stdio: StdioTransport.cpp 92-121, 1218-1314 -/

/-- 1270: the separators. -/
def isSep (c : Char) : Bool := c = ';' || c = ' ' || c = '\t'

/-- 1268-1280: the maximal runs of characters which are no separators. `cur` is the run read so far. -/
def tokens : Bytes → Bytes → List Bytes
  | cur, [] => if cur = [] then [] else [cur]
  | cur, c :: r =>
    if isSep c then (if cur = [] then tokens [] r else cur :: tokens [] r)
    else tokens (cur ++ [c]) r

/-- `std::chrono::milliseconds(uint64_t)`: the count is a signed 64-bit number. -/
def toMs (v : Nat) : Int := if v < 2 ^ 63 then (v : Int) else (v : Int) - 2 ^ 64

/-- `std::chrono::milliseconds::max()`. -/
def msMax : Int := 2 ^ 63 - 1

/-- The settings of a stdio transport. -/
structure StdioCfg where
  requestTimeout : Int
  idleRead : Int
  writeTimeout : Int
  queueMax : Nat
  maxContent : Nat
  deriving DecidableEq, Repr

/-- 92-121: the settings of a new transport; `env` is the value of `MCP_STDIOTRANSPORT_TIMEOUT_MS` (empty when not set). -/
def StdioCfg.fresh (env : Bytes) : StdioCfg :=
  { requestTimeout := if env = [] then 30000 else
      match Framer.stoull env with
      | some v => toMs v
      | none => 30000
    idleRead := 0, writeTimeout := 0, queueMax := 2 * 1024 * 1024, maxContent := 1024 * 1024 }

/-- 1218-1253 and 1285-1310: one setting; a value `stoull` rejects is ignored. -/
def StdioCfg.set (c : StdioCfg) (key val : Bytes) : StdioCfg :=
  if key = lit "timeout_ms" then
    match Framer.stoull val with
    | some v => { c with requestTimeout := if v = 0 then msMax else toMs v }
    | none => c
  else if key = lit "idle_read_timeout_ms" then
    match Framer.stoull val with
    | some v => { c with idleRead := if v = 0 then 0 else toMs v }
    | none => c
  else if key = lit "write_timeout_ms" then
    match Framer.stoull val with
    | some v => { c with writeTimeout := if v = 0 then 0 else toMs v }
    | none => c
  else if key = lit "write_queue_max_bytes" then
    match Framer.stoull val with
    | some v => { c with queueMax := if v = 0 then 1 else v }
    | none => c
  else if key = lit "max_content_length" then
    match Framer.stoull val with
    | some v => { c with maxContent := if v = 0 then 1 else v }
    | none => c
  else c

/-- 1281-1284: a token without `=` is skipped. -/
def StdioCfg.token (c : StdioCfg) (t : Bytes) : StdioCfg :=
  match splitCh '=' t with
  | some (k, v) => c.set k v
  | none => c

/-- `StdioTransportFactory::CreateTransport` (1255-1314). -/
def createStdio (env config : Bytes) : StdioCfg := (tokens [] config).foldl StdioCfg.token (StdioCfg.fresh env)

/-! ### HTTP client: HTTPTransport.hpp 54-93, HTTPTransport.cpp 1016-1120 -/

/-- The pieces between occurrences of a character. The loop of 1030-1117 stops at the end of the text, so it does not see the empty
piece after a last separator; an empty piece has no `=` and is skipped anyway. -/
def pieces (ch : Char) : Bytes → Bytes → List Bytes
  | cur, [] => [cur]
  | cur, c :: r => if c = ch then cur :: pieces ch [] r else pieces ch (cur ++ [c]) r

/-- 1020: a blank. -/
def isBlank (c : Char) : Bool := c = ' ' || c = '\t'

/-- 1018-1027 (`p` a blank), HTTPServer.cpp 1183-1187 (`p` white space): cut both ends. -/
def trim (p : Char → Bool) (s : Bytes) : Bytes := ((s.dropWhile p).reverse.dropWhile p).reverse

/-- `HTTPTransport::Options`. -/
structure HttpCfg where
  scheme : Bytes := lit "https"
  host : Bytes := lit "localhost"
  port : Bytes := lit "9443"
  endpointPath : Bytes := []
  streamPath : Bytes := []
  rpcPath : Bytes := lit "/mcp/rpc"
  notifyPath : Bytes := lit "/mcp/notify"
  serverName : Bytes := []
  caFile : Bytes := []
  caPath : Bytes := []
  connectTimeoutMs : Nat := 10000
  readTimeoutMs : Nat := 30000
  sseReconnectDelayMs : Nat := 250
  enableGetStream : Bool := true
  enableDeleteOnClose : Bool := true
  auth : Bytes := lit "none"
  bearerToken : Bytes := []
  oauthTokenUrl : Bytes := []
  clientId : Bytes := []
  clientSecret : Bytes := []
  scope : Bytes := []
  tokenRefreshSkewSeconds : Nat := 60
  deriving DecidableEq, Repr

/-- `static_cast<unsigned int>(std::stoul(val))`, the old value when it throws. -/
def uintOr (old : Nat) (val : Bytes) : Nat :=
  match Framer.stoull val with
  | some v => v % 2 ^ 32
  | none => old

/-- 1086, 1089. -/
def flagOf (val : Bytes) : Bool := !(val == lit "0" || val == lit "false" || val == lit "False")

/-- 1040-1113: one setting. -/
def HttpCfg.set (o : HttpCfg) (key val : Bytes) : HttpCfg :=
  if key = lit "scheme" then { o with scheme := val }
  else if key = lit "host" then { o with host := val }
  else if key = lit "port" then { o with port := val }
  else if key = lit "endpointPath" then { o with endpointPath := val }
  else if key = lit "streamPath" then { o with streamPath := val }
  else if key = lit "rpcPath" then { o with rpcPath := val }
  else if key = lit "notifyPath" then { o with notifyPath := val }
  else if key = lit "serverName" then { o with serverName := val }
  else if key = lit "caFile" then { o with caFile := val }
  else if key = lit "caPath" then { o with caPath := val }
  else if key = lit "connectTimeoutMs" then { o with connectTimeoutMs := uintOr o.connectTimeoutMs val }
  else if key = lit "readTimeoutMs" then { o with readTimeoutMs := uintOr o.readTimeoutMs val }
  else if key = lit "sseReconnectDelayMs" then { o with sseReconnectDelayMs := uintOr o.sseReconnectDelayMs val }
  else if key = lit "enableGetStream" then { o with enableGetStream := flagOf val }
  else if key = lit "enableDeleteOnClose" then { o with enableDeleteOnClose := flagOf val }
  else if key = lit "auth" then { o with auth := val }
  else if key = lit "token" ∨ key = lit "bearerToken" then { o with bearerToken := val }
  else if key = lit "oauthUrl" ∨ key = lit "oauthTokenUrl" then { o with oauthTokenUrl := val }
  else if key = lit "clientId" then { o with clientId := val }
  else if key = lit "clientSecret" then { o with clientSecret := val }
  else if key = lit "scope" then { o with scope := val }
  else if key = lit "tokenRefreshSkewSeconds" ∨ key = lit "tokenSkew" then
    { o with tokenRefreshSkewSeconds := uintOr o.tokenRefreshSkewSeconds val }
  else o

/-- 1034-1039: one piece. -/
def HttpCfg.piece (o : HttpCfg) (raw : Bytes) : HttpCfg :=
  match splitCh '=' (trim isBlank raw) with
  | some (k, v) => o.set (trim isBlank k) (trim isBlank v)
  | none => o

/-- `HTTPTransportFactory::CreateTransport` (1016-1120). -/
def createHttp (config : Bytes) : HttpCfg := (pieces ';' [] config).foldl HttpCfg.piece {}

/-- HTTPTransport.cpp 98, 334, 411, 737: whether the connection is made with TLS. -/
def HttpCfg.tls (o : HttpCfg) : Bool := o.scheme == lit "https"

/-! ### Shared memory: SharedMemoryTransport.hpp 27-32, SharedMemoryTransport.cpp 471-544 -/

structure ShmCfg where
  channelName : Bytes := []
  create : Bool := false
  maxMessageSize : Nat := 1024 * 1024
  maxMessageCount : Nat := 256
  deriving DecidableEq, Repr

/-- 475-478. -/
def parseBool (v : Bytes) : Bool :=
  let w := v.map lowerCh
  w == lit "1" || w == lit "true" || w == lit "yes"

/-- 492-508: one parameter. -/
def ShmCfg.set (o : ShmCfg) (k v : Bytes) : ShmCfg :=
  if k = lit "create" then { o with create := parseBool v }
  else if k = lit "maxSize" then { o with maxMessageSize := (Framer.stoull v).getD o.maxMessageSize }
  else if k = lit "maxCount" then { o with maxMessageCount := uintOr o.maxMessageCount v }
  else o

/-- 487-491: its key and its value. -/
def ShmCfg.param (o : ShmCfg) (kv : Bytes) : ShmCfg :=
  match splitCh '=' kv with
  | some (k, v) => o.set k v
  | none => o

/-- 518-525, 528-535: the channel name, then the parameters after the first `?`. -/
def ShmCfg.read (rest : Bytes) : ShmCfg :=
  match splitCh '?' rest with
  | none => { channelName := rest }
  | some (name, q) => (pieces '&' [] q).foldl ShmCfg.param { channelName := name }

/-- 539-542: a channel without a name gets one. -/
def ShmCfg.named (o : ShmCfg) : ShmCfg := if o.channelName = [] then { o with channelName := lit "mcp-shm" } else o

/-- `SharedMemoryTransportFactory::CreateTransport` (471-544). -/
def createShm (config : Bytes) : ShmCfg :=
  ShmCfg.named
    (if config = [] then {}
    else if (lit "shm://").isPrefixOf config then ShmCfg.read (config.drop 6)
    else ShmCfg.read config)

/-! ### HTTP server: HTTPServer.hpp 37-47, HTTPServer.cpp 951-977, 1176-1260 -/

structure SrvCfg where
  address : Bytes := lit "0.0.0.0"
  port : Bytes := lit "9443"
  endpointPath : Bytes := []
  streamPath : Bytes := []
  rpcPath : Bytes := lit "/mcp/rpc"
  notifyPath : Bytes := lit "/mcp/notify"
  scheme : Bytes := lit "https"
  certFile : Bytes := []
  keyFile : Bytes := []
  deriving DecidableEq, Repr

/-- 1191-1198: the scheme and the rest. -/
def splitScheme (cfg : Bytes) : Bytes × Bytes :=
  if (lit "http://").isPrefixOf cfg then (lit "http", cfg.drop 7)
  else if (lit "https://").isPrefixOf cfg then (lit "https", cfg.drop 8)
  else (lit "http", cfg)

/-- `s.rfind(ch)` with the `substr` calls around the hit. -/
def rsplitCh (ch : Char) (s : Bytes) : Option (Bytes × Bytes) :=
  match splitCh ch s.reverse with
  | some (b, a) => some (a.reverse, b.reverse)
  | none => none

/-- 1218-1239: host and port. -/
def SrvCfg.hostPort (o : SrvCfg) (hp : Bytes) : SrvCfg :=
  if hp = [] then o
  else
    let o1 : SrvCfg :=
      if hp.head? = some '[' then
        match splitCh ']' hp with
        | some (a, r) =>
          if r.head? = some ':' then { o with address := a.drop 1, port := r.drop 1 } else { o with address := a.drop 1 }
        | none => o
      else
        match rsplitCh ':' hp with
        | some (a, p) => { o with address := a, port := p }
        | none => { o with address := hp }
    let o2 : SrvCfg := { o1 with address := trim isSpaceCh o1.address, port := trim isSpaceCh o1.port }
    if o2.port = [] then { o2 with port := lit "9443" } else o2

/-- 1249-1254: one parameter. -/
def SrvCfg.set (o : SrvCfg) (key val : Bytes) : SrvCfg :=
  if key = lit "cert" then { o with certFile := val }
  else if key = lit "key" then { o with keyFile := val }
  else if key = lit "endpointPath" ∨ key = lit "endpoint" then { o with endpointPath := val }
  else if key = lit "streamPath" ∨ key = lit "stream" then { o with streamPath := val }
  else if key = lit "rpcPath" ∨ key = lit "rpc" then { o with rpcPath := val }
  else if key = lit "notifyPath" ∨ key = lit "notify" then { o with notifyPath := val }
  else o

/-- 1246-1248: its key and its value; without `=` the value is empty. -/
def SrvCfg.param (o : SrvCfg) (kv : Bytes) : SrvCfg :=
  match splitCh '=' kv with
  | some (k, v) => o.set k v
  | none => o.set kv []

/-- `HTTPServerFactory::CreateTransportAcceptor` (1176-1260). -/
def createServer (config : Bytes) : SrvCfg :=
  let sc := splitScheme (trim isSpaceCh config)
  let hq := (splitCh '?' sc.2).getD (sc.2, [])
  let hp := ((splitCh '/' hq.1).getD (hq.1, [])).1
  let o := SrvCfg.hostPort { scheme := sc.1 } (trim isSpaceCh hp)
  if hq.2 = [] then o else (pieces '&' [] hq.2).foldl SrvCfg.param o

/-- HTTPServer.cpp 90, 992: whether connections are served with TLS. -/
def SrvCfg.tls (o : SrvCfg) : Bool := o.scheme == lit "https"

/-- HTTPServer.cpp 953-977: what is said about the port before it is used; `none`: it is used. -/
def portError (port : Bytes) : Option Bytes :=
  if port = [] then some (lit "HTTPServer invalid port: empty")
  else if port.all isDig = false then some (lit "HTTPServer invalid port (non-numeric): " ++ port)
  else
    match Framer.stoull port with
    | none => some (lit "HTTPServer invalid port (parse failure): " ++ port)
    | some n => if n > 65535 then some (lit "HTTPServer invalid port (out of range): " ++ port) else none

end Verif.Config
