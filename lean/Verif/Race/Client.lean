import Verif.Race.Model

/-!
The members of `Client::Impl` (src/mcp/Client.cpp 183-213) and of the task store and the group of background tasks inside it (src/mcp/TaskSupport.h), and what every function does to them.

Simplified as in Race/Server. What follows a `co_await` runs on a thread of its own (include/mcp/async/FutureAwaitable.h 31-43) or on the caller's; it is `ClFn.later`, which is started where
the coroutine waits and may run the rest of any of them. The rest of `coInitialize` is kept apart, as `ClFn.initialized`, because it is the only one that writes a member without a guard.
-/

namespace Verif.Race

/-- 183-213; the caches stand for their three parts. -/
inductive ClLoc where
  | toolsCache | resourcesCache | templatesCache | promptsCache
  | cancelMap | stopSources | outboundTaskKinds
  /- TaskSupport.h 340; 523-526 -/
  | futures | records | order | nextId | statusCallback
  | transport | capabilities | serverCapabilities | clientInfo | notificationHandlers | progressHandler | taskStatusHandler | errorHandler | rootsListHandler | samplingHandler
  | samplingHandlerCancelable | elicitationHandler | validationMode | listingsCacheTtlMs
  /- the atomics 187, 207 -/
  | connected | cancelled
  deriving DecidableEq, Repr

/-- 200, 208, 212; TaskSupport.h 339, 521. -/
inductive ClMutex where
  | cache | cancel | outbound | group | store
  deriving DecidableEq, Repr

inductive ClFn where
  /-- user code: the application and its handlers -/
  | user
  /-- a thread of the transport -/
  | io
  | onRequest | onNotification | onError
  /-- what follows a `co_await` -/
  | later
  /-- what follows the `co_await` of `coInitialize`, 1151-1164 -/
  | initialized
  /-- the body of a task, 890-917, 982-1006 -/
  | elicitTask | samplingTask
  deriving DecidableEq, Repr

abbrev ClCode := Code ClLoc ClMutex ClFn

open Code ClLoc

/-- The scope of a guard. -/
def clUnder (m : ClMutex) (cs : List ClCode) : ClCode := .guard m (.all cs)

/-! ### Inside TaskSupport.h -/

/-- `Add`, 296-300, with `DrainReadyLocked`, 320-337; `WaitAll`, 302-317. -/
def clGroupAdd : ClCode := clUnder .group [.loop (.all [.read futures, .sync cancelled, .write futures]), .write futures]
def clWaitAll : ClCode := clUnder .group [.read futures, .write futures]

/-- A call of the transport, which may report an error at once. -/
def clSend : ClCode := .all [.read transport, .call .onError]

/-- `sendTaskStatusNotification`, Client.cpp 552-564: the status callback of the store (307-309). -/
def clSendTaskStatus : ClCode := .all [.read transport, .read transport, clSend]

/-- `CreateTask`, 355-374, with `EmitStatus`, 510-519; `GetStopSource`, `GetTask`, `GetKind`, 376-401; `ListTasks`, 403-422; `WaitForTerminalPayload`, 437-451. -/
def clCreateTask : ClCode :=
  .all [clUnder .store [.read nextId, .write nextId, .write records, .write order], clUnder .store [.read statusCallback], clSendTaskStatus]
def clGetTask : ClCode := clUnder .store [.read records]
def clListTasks : ClCode := clUnder .store [.read order, .loop (.read records)]
def clWaitPayload : ClCode := .all [clUnder .store [.read records], .loop (clUnder .store [.read records])]

/-- `CompleteTask`, `CancelTask`, `SetTerminal`, 424-435, 462-508. -/
def clSetTerminal : ClCode := .all [clUnder .store [.read records, .write records, .read statusCallback], .sync cancelled, clSendTaskStatus]

/-! ### Inside Client.cpp -/

/-- `registerCancelToken`, 243-255; `unregisterCancelToken`, 256-263; `cancelById`, 264-285; `registerStopSource`, 286-297. `unregisterStopSource`, 298-310, is called by nobody. -/
def clRegCancel : ClCode := clUnder .cancel [.read cancelMap, .write cancelMap]
def clUnregCancel : ClCode := clUnder .cancel [.write cancelMap, .write stopSources]
def clCancelById : ClCode := clUnder .cancel [.read cancelMap, .sync cancelled, .write cancelMap, .read stopSources]
def clRegStop : ClCode := clUnder .cancel [.write stopSources, .read cancelMap, .sync cancelled]

/-- `handleProgressNotification`, 510-536. -/
def clProgress : ClCode := .all [.read validationMode, .read progressHandler, .call .user]

/-- `invalidateCachesForListChanged`, 538-550. -/
def clInvalidate : ClCode := .all [clUnder .cache [.write toolsCache], clUnder .cache [.write resourcesCache, .write templatesCache], clUnder .cache [.write promptsCache]]

/-- `rememberOutboundTask`, 566-572; `outboundTaskKindFor`, 574-581. -/
def clRemember : ClCode := clUnder .outbound [.write outboundTaskKinds]
def clKindFor : ClCode := clUnder .outbound [.read outboundTaskKinds]

/-- `onNotification`, 594-627. -/
def clOnNotification : ClCode :=
  .all [.read progressHandler, clProgress, clCancelById, .all [.read taskStatusHandler, .read validationMode, .read taskStatusHandler, .call .user],
    .all [clInvalidate, .read notificationHandlers, .call .user]]

/-- The branches of `onRequest` for the tasks of the client, 708-832. -/
def clTaskRequests : ClCode :=
  .all [.read capabilities, .all [clGetTask, .read validationMode], .all [clListTasks, .read validationMode], .all [clGetTask, clWaitPayload, .read validationMode],
    .all [clSetTerminal, .read validationMode]]

/-- The branch `elicitation/create`, 833-945, and the body of its task, 890-917. -/
def clElicit : ClCode :=
  .all [.read elicitationHandler, .read validationMode, .read capabilities, .all [clCreateTask, .spawn .elicitTask, clGroupAdd, .read validationMode],
    .all [.read elicitationHandler, .call .user, .read validationMode]]
def clElicitTask : ClCode := .all [.read elicitationHandler, .call .user, .read validationMode, clSetTerminal]

/-- The branch `sampling/createMessage`, 946-1066, and the body of its task, 982-1006. -/
def clSampling : ClCode :=
  .all [.all [.read capabilities, .read samplingHandler, .read samplingHandlerCancelable, .read validationMode, clCreateTask, clGetTask, .spawn .samplingTask, clGroupAdd, .read validationMode],
    .all [clRegCancel, clRegStop, .read samplingHandler, .read samplingHandlerCancelable, .read validationMode, .read samplingHandler, .read samplingHandlerCancelable, .call .user, .sync cancelled,
      .read validationMode, clUnregCancel]]
def clSamplingTask : ClCode := .all [.read samplingHandler, .read samplingHandlerCancelable, .call .user, .read validationMode, clSetTerminal]

/-- `onRequest`, 664-1076: the branches stand one after the other; those not taken are left out. -/
def clOnRequest : ClCode := .all [.all [.read rootsListHandler, .call .user, .read validationMode], clTaskRequests, clElicit, clSampling]

/-- The error handler that the transport is given, 1084-1088. -/
def clOnError : ClCode := .all [.read errorHandler, .call .user]

/-- `coConnect`, 1078-1099: before the threads of the transport run; and `Start` of the transport with what follows. -/
def clConnectWire : ClCode := .all [.write transport, .read transport]
def clConnectRun : ClCode := .all [.read transport, .spawn .io, .spawn .later]

/-- `Disconnect` and `coDisconnect`, 2096-2103, 1101-1115. -/
def clDisconnect : ClCode := .all [.read transport, clWaitAll, .read transport, .spawn .later]

/-- `coInitialize`, 1116-1165: before the wait, and after it, with `parseServerCapabilities`, 384-458. -/
def clInitialize : List ClCode := [.write capabilities, clSend, .spawn .initialized]
def clInitialized : ClCode := .all [.write serverCapabilities, .read serverCapabilities]

/-- The cache is asked: 1455-1466, 1591-1602, 1727-1738, 1866-1877; and filled: 1512-1517, 1648-1653, 1784-1789, 1926-1931. -/
def clAsk (c : ClLoc) : ClCode := .all [.read listingsCacheTtlMs, clUnder .cache [.read c, .read listingsCacheTtlMs, .read c]]
def clFill (c : ClLoc) : ClCode := .all [.read listingsCacheTtlMs, clUnder .cache [.write c]]

/-- `coListTools`, `coListResources`, `coListResourceTemplates`, `coListPrompts`, 1452-1519, 1588-1655, 1724-1791, 1863-1933: before the wait. -/
def clList (c : ClLoc) : ClCode := .all [clAsk c, clSend, .spawn .later]

/-- The coroutines that only send a request and look at the answer, 1167-1450, 1521-1586, 1657-1722, 1793-1861, 1935-2078. -/
def clCall : ClCode := .all [.read transport, clSend, .spawn .later]

/-- After the wait: 1098, 1113, 1181-1205, 1217-1228, 1250-1256, 1338-1339, the listings. -/
def clLater : ClCode :=
  .all [.all [.read transport, .sync connected], clWaitAll, .read validationMode, clRemember, clKindFor, clFill toolsCache, clFill resourcesCache, clFill templatesCache, clFill promptsCache,
    .call .user]

/-- `IsConnected`, 2105-2109; `GetValidationMode`, 2318-2321. -/
def clLook : ClCode := .all [.read transport, .read transport, .read validationMode]

/-- `SetListingsCacheTtlMs`, 2297-2310: the member itself is written before the guard and without one. -/
def clSetTtl : ClCode :=
  .all [.write listingsCacheTtlMs, clUnder .cache [.write toolsCache, .write resourcesCache, .write templatesCache, .write promptsCache]]

/-- 2247-2295, 2313-2316: `SetNotificationHandler`, `RemoveNotificationHandler`, … -/
def clSetters : List ClCode :=
  [.write notificationHandlers, .write progressHandler, .write taskStatusHandler, .write rootsListHandler, .write samplingHandler, .write samplingHandlerCancelable, .write elicitationHandler,
    .write errorHandler, clSetTtl, .write validationMode]

/-- All that may be called besides. -/
def clServices : List ClCode := [clDisconnect, clList toolsCache, clList resourcesCache, clList templatesCache, clList promptsCache, clCall, clLook]

/-- With `late`, the settings are also changed, a transport is also set, and `Initialize` is also called, at any time and by any thread. -/
def clProg (late : Bool) : ClFn → ClCode
  | .user => .loop (.all (clServices ++ (if late then clSetters ++ [clConnectWire, clConnectRun] ++ clInitialize else []) ++ [.spawn .user]))
  | .io => .loop (.all [.spawn .onRequest, .call .onRequest, .call .onNotification, .call .onError, .spawn .io])
  | .onRequest => clOnRequest
  | .onNotification => clOnNotification
  | .onError => clOnError
  | .later => clLater
  | .initialized => clInitialized
  | .elicitTask => clElicitTask
  | .samplingTask => clSamplingTask

/-- A program that makes a client (301-310), sets its handlers, in any order, calls `Connect`, then `Initialize`, and then uses the client from as many threads as it likes. -/
def clSetup : List ClCode := [.write clientInfo, .write capabilities, clUnder .store [.write statusCallback], .loop (.all clSetters), clConnectWire]
def clUse : List ClCode := [clConnectRun] ++ clInitialize ++ [.call .user]

end Verif.Race
