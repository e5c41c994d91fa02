import Verif.Race.Model

/-!
What the functions of the two ends of HTTP do to their members: the client's transport (src/mcp/HTTPTransport.cpp) and the server (src/mcp/HTTPServer.cpp).

Simplified as in Race/Server. Work that is handed to `ioc` is done by the thread that runs it (one, since `Start` makes one); handing over is an access of the atomic `ioc`, and so is taking. The
authenticator is another object. Of the sessions of the server one is looked at: its members are reached through the session, together with the mutex that is inside it, so that the sessions do
not meet; what is written before the session is put into the map (`id`, `protocolVersion`) is left out.
-/

namespace Verif.Race

/-! ### The transport of the client -/

/-- 60-91. -/
inductive HtLoc where
  | connected | closing | sseEnabled | sseRunning | ioc | requestCounter
  | opts | sessionId | mcpSessionId | negotiatedVersion | ioThread | sseThread | sslCtx | workGuard | errorHandler | notificationHandler | requestHandler | pendingRequests | caInitOk | router | auth
  | lastResp
  deriving DecidableEq, Repr

/-- 79, 83, 90. -/
inductive HtMutex where
  | request | session | last
  deriving DecidableEq, Repr

inductive HtFn where
  | user
  /-- the thread that runs `ioc`, 756-767 -/
  | io
  /-- `runSseLoop`, 517-739 -/
  | sse
  deriving DecidableEq, Repr

abbrev HtCode := Code HtLoc HtMutex HtFn

/-- `setError`, 213-217. -/
def htError : HtCode := .all [.read .errorHandler, .call .user]

/-- `recordResponse`, 176-193. -/
def htRecord : HtCode := .guard .last (.write .lastResp)

/-- `stopSseLoop`, 219-225. -/
def htStopSse : HtCode := .all [.sync .sseEnabled, .read .sseThread, .write .sseThread, .sync .sseRunning]

/-- `maybeCaptureSessionId`, 227-233. -/
def htCapture : HtCode := .guard .session (.write .mcpSessionId)

/-- `deliverInternalError`, 239-257; `deliverResponse`, 259-290. -/
def htFail : HtCode := .guard .request (.all [.read .pendingRequests, .write .pendingRequests])
def htDeliver : HtCode := .all [.guard .request (.all [.read .pendingRequests, .write .pendingRequests]), htFail]

/-- `coEnsureAuthHeader`, 297-307. -/
def htAuth : HtCode := .read .auth

/-- `coPostJson`, 310-377. -/
def htPost : HtCode :=
  .all [.read .opts, .guard .session (.all [.read .mcpSessionId, .read .negotiatedVersion]), htAuth, .read .opts, .read .caInitOk, .read .sslCtx, htError, htRecord, htError]

/-- `coDeleteSession`, 379-449. -/
def htDelete : HtCode :=
  .all [.read .opts, .guard .session (.all [.read .mcpSessionId, .read .negotiatedVersion]), htAuth, .read .opts, .read .caInitOk, .read .sslCtx, htError, htRecord, htError]

/-- `handleIncomingJson`, 452-501: the answer to a request is handed to `ioc`. -/
def htIncoming : HtCode :=
  .all [.read .router, htFail, .read .notificationHandler, .read .errorHandler, .read .requestHandler, .call .user, htDeliver, .read .opts, .sync .ioc, htFail]

/-- `maybeStartSseLoop`, 503-515: the member is written after the guard is gone. -/
def htStartSse : HtCode :=
  .all [.read .opts, .sync .sseEnabled, .guard .session (.all [.read .mcpSessionId, .sync .sseRunning]), .sync .sseRunning, .spawn .sse, .write .sseThread]

/-- The thread of `ioc`: `coPostJson` and `coDeleteSession` and what `SendRequest`, `SendNotification` and `handleIncomingJson` let follow, 482-494, 897-922, 935-948; 760-764. -/
def htIo : HtCode :=
  .loop (.all [.sync .ioc, htPost, .all [htError, htCapture, htStartSse, htIncoming, htFail], .all [htError, htCapture], htDelete, htAuth, htError])

/-- `runSseLoop`, 517-739: the header of the authenticator is made by the thread of `ioc` (584, 674). -/
def htSse : HtCode :=
  .all [.read .opts,
    .loop (.all [.sync .connected, .sync .sseEnabled, .read .opts, .read .sslCtx, .guard .session (.all [.read .mcpSessionId, .read .negotiatedVersion]), .sync .ioc, .sync .sseEnabled,
      .loop (.guard .session (.write .mcpSessionId)), .loop (.all [.sync .connected, .sync .sseEnabled, htIncoming]), htError]),
    .sync .sseRunning]

/-- `Start`, 751-769. -/
def htStart : List HtCode := [.sync .connected, .write .workGuard, .spawn .io, .write .ioThread]

/-- `Close`, 771-831. -/
def htClose : HtCode :=
  .all [.sync .closing, .sync .connected, .read .opts, .sync .ioc, htError, htStopSse, htError, .sync .connected, .guard .session (.write .mcpSessionId),
    .read .workGuard, .write .workGuard, .sync .ioc, htError, .read .ioThread, htError, .write .ioThread, htError,
    .guard .request (.all [htError, .read .pendingRequests, .write .pendingRequests]), htError]

/-- `IsConnected`, `GetSessionId`, 833-840; `QueryLastHttpResponse`, 988-1010. -/
def htLook : HtCode := .all [.sync .connected, .guard .session (.all [.read .mcpSessionId, .read .sessionId]), .guard .last (.read .lastResp)]

/-- `SendRequest`, 842-925; `SendNotification`, 927-951. -/
def htSendRequest : HtCode := .all [.sync .connected, .sync .requestCounter, .read .opts, .guard .request (.write .pendingRequests), .read .opts, .sync .ioc]
def htSendNotification : HtCode := .all [.sync .connected, .read .opts, .sync .ioc]

/-- 953-986. -/
def htSetters : List HtCode :=
  [.write .notificationHandler, .write .requestHandler, .all [.write .errorHandler, .read .errorHandler, .read .auth], .all [.write .auth, .read .errorHandler, .read .auth]]

def htProg (late : Bool) : HtFn → HtCode
  | .user => .loop (.all ([htClose, htLook, htSendRequest, htSendNotification] ++ (if late then htSetters ++ htStart else []) ++ [.spawn .user]))
  | .io => htIo
  | .sse => htSse

/-- The constructor, 93-143, the handlers and the authenticator; then `Start` and use from any number of threads. -/
def htSetup : List HtCode :=
  [.write .opts, .write .sessionId, .guard .session (.all [.write .mcpSessionId, .write .negotiatedVersion]), .write .router, .write .sslCtx, .write .caInitOk, .write .auth, .loop (.all htSetters)]
def htUse : List HtCode := htStart ++ [.call .user]

/-! ### The server -/

/-- 49-87; `pendingRequests`, `outbound`, `nextEventId` and `closed` are members of a session, 60-69. -/
inductive HsLoc where
  | running | requestCounter | ioc | listenReadySignaled | answer
  | opts | acceptor | sslCtx | ioThread | requestHandler | notificationHandler | errorHandler | sessions | activeSessionId | sseThreads | bearer | listenReady | router
  | outbound | pendingRequests | closed | nextEventId
  deriving DecidableEq, Repr

/-- 72, 76 and 63. -/
inductive HsMutex where
  | sessions | threads | session
  deriving DecidableEq, Repr

inductive HsFn where
  | user
  /-- the thread that runs `ioc`, 1035-1043 -/
  | io
  /-- `makeResponse` on a thread of its own, 951-962 -/
  | answer
  /-- the thread of a stream, 439-478, 543-580 -/
  | stream
  deriving DecidableEq, Repr

abbrev HsCode := Code HsLoc HsMutex HsFn

/-- `setError`, 122-124. -/
def hsError : HsCode := .all [.read .errorHandler, .call .user]

/-- `signalReadyOrErrorOnce`, 126-133. -/
def hsReady : HsCode := .all [.sync .listenReadySignaled, .read .listenReady]

/-- `findSession`, 161-165; `createSession`, 167-175; `activeSession`, 177-181. -/
def hsFind : HsCode := .guard .sessions (.read .sessions)
def hsCreate : HsCode := .guard .sessions (.all [.write .sessions, .write .activeSessionId])
def hsActive : HsCode := .guard .sessions (.all [.read .activeSessionId, .read .sessions])

/-- `removeSession`, 183-215. -/
def hsRemove : HsCode :=
  .all [.guard .sessions (.all [.read .sessions, .write .sessions, .read .activeSessionId, .write .activeSessionId]),
    .guard .session (.all [.write .closed, .read .pendingRequests, .write .pendingRequests])]

/-- `queueOutbound`, 217-224. -/
def hsQueue : HsCode := .guard .session (.all [.read .nextEventId, .write .nextEventId, .write .outbound])

/-- `resolvePendingResponse`, 362-396. -/
def hsResolve : HsCode := .guard .session (.all [.read .pendingRequests, .write .pendingRequests])

/-- `enforceAuthAndScope`, 639-697. -/
def hsAuth : HsCode := .read .bearer

/-- What the router is given and does, 718-729, 767-773, 853-866. -/
def hsRoute : HsCode := .all [.read .requestHandler, .read .notificationHandler, .read .errorHandler, .read .router, .call .user, hsResolve, hsError]

/-- `makeResponse`, 884-949, with `handleRpc`, 703-747, `handleNotify`, 753-778, and `handleEndpoint`, 780-882. -/
def hsAnswer : HsCode := .all [.read .opts, .read .bearer, hsAuth, hsRemove, hsCreate, hsFind, hsRoute, .sync .answer]

/-- The thread of a stream, 439-478, 543-580; the socket is its own. -/
def hsStream : HsCode :=
  .all [.loop (.all [.sync .running, .loop (.guard .session (.all [.read .closed, .read .outbound, .sync .running])),
      .guard .session (.all [.read .closed, .sync .running, .read .outbound, .write .outbound])]), .sync .running, hsError]

/-- `session_plain` and `session_tls`, 408-505, 507-608; `coMakeResponse`, 951-962. The thread starts inside the guard. -/
def hsSession : HsCode :=
  .all [.read .sslCtx, .read .opts, hsFind, .guard .threads (.all [.spawn .stream, .write .sseThreads]), .all [.spawn .answer, .sync .answer], .sync .running, hsError]

/-- `acceptLoop`, 964-1018, and the thread that runs it, 1035-1043. -/
def hsIo : HsCode :=
  .all [.read .opts, hsError, hsReady, .write .acceptor, hsReady, .loop (.all [.sync .running, .read .acceptor, .read .opts, .sync .ioc, hsSession]), .sync .running, hsError, hsReady]

/-- `Start`, 1028-1045. -/
def hsPrepare : List HsCode := [.write .listenReady, .sync .listenReadySignaled]
def hsRun : List HsCode := [.sync .running, .spawn .io, .write .ioThread]

/-- `Stop` and `Close`, 1047-1091; the mutex of a session is taken inside that of the sessions. -/
def hsStop : HsCode :=
  .all [.sync .running,
    .guard .sessions (.all [.read .sessions, .loop (.guard .session (.all [.write .closed, .read .pendingRequests, .write .pendingRequests])), .write .sessions, .write .activeSessionId]),
    .read .acceptor, .sync .ioc, .read .ioThread, .write .ioThread, .guard .threads (.all [.read .sseThreads, .write .sseThreads])]

/-- `IsConnected`, `GetSessionId`, 1093-1099: without the mutex. -/
def hsLook : HsCode := .all [.sync .running, .read .activeSessionId]

/-- `SendRequest`, 1101-1137; `SendNotification`, 1139-1150. -/
def hsSendRequest : HsCode := .all [hsActive, .sync .requestCounter, .guard .session (.write .pendingRequests), hsQueue]
def hsSendNotification : HsCode := .all [hsActive, hsQueue]

/-- 1152-1175. -/
def hsSetters : List HsCode := [.write .requestHandler, .write .notificationHandler, .write .errorHandler, .write .bearer]

def hsProg (late : Bool) : HsFn → HsCode
  | .user => .loop (.all ([hsStop, hsLook, hsSendRequest, hsSendNotification] ++ (if late then hsSetters ++ hsPrepare ++ hsRun else []) ++ [.spawn .user]))
  | .io => hsIo
  | .answer => hsAnswer
  | .stream => hsStream

/-- The constructor, 89-107, the handlers and the bearer tokens, and the part of `Start` before its thread; then use from any number of threads. -/
def hsSetup : List HsCode := [.write .opts, .write .sslCtx, .write .router, .loop (.all hsSetters)] ++ hsPrepare
def hsUse : List HsCode := hsRun ++ [.call .user]

end Verif.Race
