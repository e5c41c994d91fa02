import Verif.Race.Model

/-!
What the functions of three transports do to the members of the transport: the in-memory transport (src/mcp/InMemoryTransport.cpp), standard input and output (src/mcp/StdioTransport.cpp, the
Linux branch) and shared memory (src/mcp/SharedMemoryTransport.cpp).

Simplified as in Race/Server: a container is one member, copies belong to the thread, the destructor is left out, handlers are user code that may call any function. A wait on a condition
variable releases the mutex and takes it again: it is a round of a loop of guarded pieces. The promises in `pendingRequests` are parts of that member.
-/

namespace Verif.Race

/-! ### In memory -/

/-- 28-42. -/
inductive ImLoc where
  | connected | requestCounter
  | sessionId | notificationHandler | requestHandler | errorHandler | peer | messageQueue | processingThread | pendingRequests | router
  deriving DecidableEq, Repr

/-- 34, 36, 40. -/
inductive ImMutex where
  | peer | queue | request
  deriving DecidableEq, Repr

inductive ImFn where
  | user
  /-- the processing thread, 62-77 -/
  | processing
  /-- the thread of a request, 102-120 -/
  | request
  deriving DecidableEq, Repr

abbrev ImCode := Code ImLoc ImMutex ImFn

/-- `sendToPeer`, 164-172; what it does to the peer is a call of `imDeliver` there. -/
def imSendToPeer : ImCode := .guard .peer (.all [.read .peer, .sync .connected])

/-- `enqueueMessage`, 158-162: called by the peer. -/
def imDeliver : ImCode := .guard .queue (.write .messageQueue)

/-- `handleResponse`, 136-150. -/
def imHandleResponse : ImCode := .guard .request (.all [.read .pendingRequests, .write .pendingRequests])

/-- `processMessage`, 80-134; `handleNotification`, 152-156. -/
def imProcess : ImCode := .all [.read .router, imHandleResponse, .read .requestHandler, .spawn .request, .read .notificationHandler, .call .user]

/-- 102-120. -/
def imRequest : ImCode := .all [.read .requestHandler, .call .user, imSendToPeer]

/-- 62-77: the mutex is released around `processMessage`. -/
def imProcessing : ImCode :=
  .loop (.all [.sync .connected, .loop (.guard .queue (.all [.read .messageQueue, .sync .connected])), .guard .queue (.all [.read .messageQueue, .write .messageQueue]), imProcess])

/-- `Start`, 190-196, 61-78: the thread runs before the member has it. -/
def imStart : List ImCode := [.sync .connected, .read .processingThread, .spawn .processing, .write .processingThread]

/-- `Close`, 198-215. -/
def imClose : ImCode := .all [.sync .connected, .guard .request (.all [.read .pendingRequests, .write .pendingRequests])]

/-- `IsConnected`, `GetSessionId`, 217-218. -/
def imLook : ImCode := .all [.sync .connected, .read .sessionId]

/-- `SendRequest`, 220-259; `SendNotification`, 261-272. -/
def imSendRequest : ImCode := .all [.sync .requestCounter, .guard .request (.write .pendingRequests), imSendToPeer, .guard .request (.all [.read .pendingRequests, .write .pendingRequests])]
def imSendNotification : ImCode := .all [imSendToPeer, .read .errorHandler, .call .user]

/-- 274-287. -/
def imSetters : List ImCode := [.write .notificationHandler, .write .errorHandler, .write .requestHandler]

def imProg (late : Bool) : ImFn → ImCode
  | .user => .loop (.all ([imDeliver, imClose, imLook, imSendRequest, imSendNotification] ++ (if late then imSetters ++ imStart else []) ++ [.spawn .user]))
  | .processing => imProcessing
  | .request => imRequest

/-- The constructor and `CreatePair`, 44-50, 180-188, and the handlers; then `Start` and use from any number of threads. -/
def imSetup : List ImCode := [.write .sessionId, .write .router, .write .peer, .loop (.all imSetters)]
def imUse : List ImCode := imStart ++ [.call .user]

/-! ### Standard input and output -/

/-- 57-102; `wakeFd` is `wakeEventFd`. -/
inductive SdLoc where
  | connected | readerExited | writerExited | requestCounter
  | sessionId | notificationHandler | requestHandler | errorHandler | readerThread | timeoutThread | writerThread | pendingRequests | requestDeadlines | router | framer | wakeFd
  | requestTimeout | idleReadTimeout | lastReadTs | writeQueue | queuedBytes | writeQueueMaxBytes | writeTimeout | contentMaxLength
  deriving DecidableEq, Repr

/-- 67-68, 72. -/
inductive SdMutex where
  | request | write | exit
  deriving DecidableEq, Repr

inductive SdFn where
  | user | reader | writer | timeouts
  deriving DecidableEq, Repr

abbrev SdCode := Code SdLoc SdMutex SdFn

/-- `if (errorHandler) errorHandler(…)`. -/
def sdError : SdCode := .all [.read .errorHandler, .call .user]

/-- `enqueueFrame`, 202-249. -/
def sdEnqueue : SdCode :=
  .all [.read .framer, .guard .write (.all [.read .queuedBytes, .read .writeQueueMaxBytes, sdError, .sync .connected, .read .wakeFd, .read .queuedBytes, .write .queuedBytes, .write .writeQueue])]

/-- `handleResponse`, 1000-1015. -/
def sdHandleResponse : SdCode := .guard .request (.all [.read .pendingRequests, .write .pendingRequests, .write .requestDeadlines])

/-- `processMessage`, 980-998: the router calls the handlers on this thread. -/
def sdProcess : SdCode := .all [.read .router, .read .requestHandler, .read .notificationHandler, .read .errorHandler, .call .user, sdHandleResponse, sdEnqueue]

/-- `drainFrames`, 255-288. -/
def sdDrain : SdCode := .all [.write .lastReadTs, .loop (.all [.sync .connected, .read .framer, sdProcess, sdError, .sync .connected])]

/-- The reader, 667-697, with `readLoopLinux`, 420-572. -/
def sdReader : SdCode :=
  .all [.write .lastReadTs, .loop (.all [.sync .connected, .read .wakeFd, sdError, sdDrain, .read .idleReadTimeout, .read .lastReadTs, sdError]), .sync .connected, .sync .readerExited]

/-- The writer, 875-925, with `dequeueNextFrame`, `accountWritten`, 700-722, and `writeChunkPosix`, 826-872. -/
def sdWriter : SdCode :=
  .all [.sync .writerExited,
    .loop (.all [.sync .connected, .loop (.guard .write (.all [.sync .connected, .read .writeQueue])), .guard .write (.all [.read .writeQueue, .write .writeQueue]),
      .loop (.all [.sync .connected, .read .writeTimeout, sdError, .sync .connected]), .guard .write (.all [.read .queuedBytes, .write .queuedBytes])]),
    .sync .writerExited]

/-- The timeouts, 927-978. -/
def sdTimeouts : SdCode :=
  .loop (.all [.sync .connected, .loop (.guard .request (.all [.read .requestDeadlines, .sync .connected])),
    .guard .request (.all [.read .requestDeadlines, .read .pendingRequests, .write .pendingRequests, .write .requestDeadlines])])

/-- `Start`, 1029-1037. -/
def sdStart : List SdCode := [.sync .connected, .spawn .reader, .write .readerThread, .spawn .writer, .write .writerThread, .spawn .timeouts, .write .timeoutThread]

/-- `Close`, 1039-1146. -/
def sdClose : SdCode :=
  .all [.sync .connected, .read .wakeFd,
    .read .readerThread, .loop (.guard .exit (.sync .readerExited)), .sync .readerExited, .write .readerThread,
    .read .writerThread, .loop (.guard .exit (.sync .writerExited)), .sync .writerExited, .write .writerThread,
    .read .timeoutThread, .write .timeoutThread,
    .guard .request (.all [.read .pendingRequests, .write .pendingRequests, .write .requestDeadlines])]

/-- `IsConnected`, `GetSessionId`, 1148-1149. -/
def sdLook : SdCode := .all [.sync .connected, .read .sessionId]

/-- `SendRequest`, 1151-1191; `SendNotification`, 1193-1204. -/
def sdSendRequest : SdCode := .all [.sync .connected, .sync .requestCounter, .guard .request (.all [.write .pendingRequests, .read .requestTimeout, .write .requestDeadlines]), sdEnqueue]
def sdSendNotification : SdCode := .all [.sync .connected, sdEnqueue]

/-- 1206-1253. -/
def sdSetters : List SdCode :=
  [.write .notificationHandler, .write .requestHandler, .write .errorHandler, .write .requestTimeout, .write .idleReadTimeout, .write .writeQueueMaxBytes, .write .writeTimeout,
    .all [.write .contentMaxLength, .read .contentMaxLength, .write .framer]]

def sdProg (late : Bool) : SdFn → SdCode
  | .user => .loop (.all ([sdClose, sdLook, sdSendRequest, sdSendNotification] ++ (if late then sdSetters ++ sdStart else []) ++ [.spawn .user]))
  | .reader => sdReader
  | .writer => sdWriter
  | .timeouts => sdTimeouts

/-- The constructor, 104-159, the handlers and the limits; then `Start` and use from any number of threads. -/
def sdSetup : List SdCode := [.write .sessionId, .write .requestTimeout, .write .wakeFd, .write .router, .write .framer, .loop (.all sdSetters)]
def sdUse : List SdCode := sdStart ++ [.call .user]

/-! ### Shared memory -/

/-- 39-54; the queues themselves are safe to use from several threads. -/
inductive ShLoc where
  | connected | counter
  | opts | sendMq | recvMq | processingThread | notificationHandler | requestHandler | errorHandler | pendingRequests | sessionId | router
  deriving DecidableEq, Repr

/-- 50. -/
inductive ShMutex where
  | request
  deriving DecidableEq, Repr

inductive ShFn where
  | user | processing | request
  deriving DecidableEq, Repr

abbrev ShCode := Code ShLoc ShMutex ShFn

def shError : ShCode := .all [.read .errorHandler, .call .user]

/-- `sendPayload`, 154-187. -/
def shSendPayload : ShCode := .all [.read .sendMq, shError, .read .opts, shError, .read .sendMq, .read .sendMq, shError]

/-- The loop over all requests: 131-139, 278-286, 334-342. -/
def shFailAll : ShCode := .guard .request (.all [.read .pendingRequests, .write .pendingRequests])

/-- `processMessage`, 83-147; `handleResponse`, 189-207. -/
def shProcess : ShCode := .all [shFailAll, .read .router, .read .requestHandler, .spawn .request, .sync .connected, shFailAll, shError, .read .notificationHandler, .call .user]

/-- 99-117. -/
def shRequest : ShCode := .all [.read .requestHandler, .call .user, shSendPayload]

/-- 249-287. -/
def shProcessing : ShCode := .all [.read .opts, .loop (.all [.sync .connected, .read .recvMq, shError, .sync .connected, shProcess]), .sync .connected, shFailAll]

/-- `Start`, 219-292: the queues, and the thread. -/
def shWire : List ShCode := [.read .opts, .write .recvMq, .write .sendMq]
def shRun : List ShCode := [.sync .connected, .read .processingThread, .spawn .processing, .write .processingThread]

/-- `Close`, 294-346. -/
def shClose : ShCode := .all [.read .opts, .read .sendMq, shSendPayload, .sync .connected, .read .processingThread, .write .processingThread, .read .opts, shFailAll]

/-- 348-349. -/
def shLook : ShCode := .all [.sync .connected, .read .sessionId]

/-- `SendRequest`, 351-434; `SendNotification`, 436-444. -/
def shSendRequest : ShCode :=
  .all [.sync .connected, .sync .counter, .guard .request (.write .pendingRequests), .read .opts, .guard .request (.all [.read .pendingRequests, .write .pendingRequests]),
    shSendPayload, .guard .request (.all [.read .pendingRequests, .write .pendingRequests])]
def shSendNotification : ShCode := shSendPayload

/-- 446-459. -/
def shSetters : List ShCode := [.write .notificationHandler, .write .requestHandler, .write .errorHandler]

def shProg (late : Bool) : ShFn → ShCode
  | .user => .loop (.all ([shClose, shLook, shSendRequest, shSendNotification] ++ (if late then shSetters ++ shWire ++ shRun else []) ++ [.spawn .user]))
  | .processing => shProcessing
  | .request => shRequest

/-- The constructor, 56-60, the handlers and the queues of `Start`; then its thread and use from any number of threads. -/
def shSetup : List ShCode := [.write .opts, .write .sessionId, .write .router, .loop (.all shSetters)] ++ shWire
def shUse : List ShCode := shRun ++ [.call .user]

end Verif.Race
