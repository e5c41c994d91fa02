import Verif.Race.Model

/-!
The members of `Server::Impl` (src/mcp/Server.cpp 152-225, 1099-1109) and of the task store and the group of background tasks inside it (src/mcp/TaskSupport.h), and what every function
does to them: which it reads and writes, and under which mutex.

What is simplified: a container or a structure is one member (an access of a part is an access of the whole). Values that were copied out of a member are the thread's own, also where two
copies of a `JSONValue` share subtrees, which nobody writes. `RequestContextScope` (1555) is thread-local. The transport is another object: a call of it is a read of the pointer, and it may
report an error on the spot (1520-1531). User code (handlers, callbacks, the application) may call any function at any time. What follows a `co_await` may run on another thread; it
is code that any thread may run at any time, and a thread that waits is started (include/mcp/async/FutureAwaitable.h 31-43). The destructor is left out.
-/

namespace Verif.Race

inductive SvLoc where
  /- 1099-1106, 189 -/
  | toolHandlers | toolMetadata | resourceHandlers | resourceMetadata | resourceUris | promptHandlers | promptMetadata | resourceTemplates | subscribedUris
  /- 218, 221 -/
  | cancelMap | stopSources
  /- 225, 210-211 -/
  | outboundTaskKinds | logWindowStart | logWindowCount
  /- TaskSupport.h 340; 523-526, `records` with what the records contain -/
  | futures | records | order | nextId | statusCallback
  /- 152-155, 186-191, 214, 196 -/
  | transport | capabilities | clientCapabilities | serverInfo | errorCallback | taskStatusHandler | samplingHandler | completionHandler | validationMode | keepaliveThread
  /- the atomics 156, 160, 188, 194-200, 205, 208 -/
  | initialized | cancelled | resourcesSubscribed | keepalive | clientLogMin | logRateLimitPerSec
  deriving DecidableEq, Repr

/-- 1109, 217, 224, 209, 201; TaskSupport.h 339, 521. -/
inductive SvMutex where
  | registry | cancel | outbound | logRate | keepalive | group | store
  deriving DecidableEq, Repr

/-- The functions that are called or run as threads. -/
inductive SvFn where
  /-- user code -/
  | user
  /-- a thread of the transport -/
  | io
  | dispatch | notice | onError
  /-- the body of a tool task, 882-907 -/
  | toolTask
  /-- the keepalive thread, 3081-3137 -/
  | keepalive
  deriving DecidableEq, Repr

abbrev SvCode := Code SvLoc SvMutex SvFn

open Code SvLoc

/-- The scope of a guard. -/
def under (m : SvMutex) (cs : List SvCode) : SvCode := .guard m (.all cs)

/-! ### Inside TaskSupport.h -/

/-- `BackgroundTaskGroup::Add`, 296-300, with `DrainReadyLocked`, 320-337. -/
def svGroupAdd : SvCode := under .group [.loop (.all [.read futures, .sync cancelled, .write futures]), .write futures]

/-- `WaitAll`, 302-317. -/
def svWaitAll : SvCode := under .group [.read futures, .write futures]

/-- `sendTaskStatusNotification`, Server.cpp 1460-1472: the status callback of the store (1126-1128). -/
def svSendTaskStatus : SvCode := .all [.read transport, .read transport, .call .onError]

/-- `EmitStatus`, 510-519. -/
def svEmitStatus : SvCode := .all [under .store [.read statusCallback], svSendTaskStatus]

/-- `CreateTask`, 355-374. -/
def svCreateTask : SvCode := .all [under .store [.read nextId, .write nextId, .write records, .write order], svEmitStatus]

/-- `GetStopSource`, `GetTask`, `GetKind`, 376-401. -/
def svGetTask : SvCode := under .store [.read records]

/-- `ListTasks`, 403-422. -/
def svListTasks : SvCode := under .store [.read order, .loop (.read records)]

/-- `WaitForTerminalPayload`, 437-451: the wait releases the mutex and takes it again. -/
def svWaitPayload : SvCode := .all [under .store [.read records], .loop (under .store [.read records])]

/-- `CompleteTask`, `CancelTask` and `SetTerminal`, 424-435, 462-508. -/
def svSetTerminal : SvCode := .all [under .store [.read records, .write records, .read statusCallback], .sync cancelled, svSendTaskStatus]

/-! ### Inside Server.cpp -/

/-- `resolveResourceRead`, 325-354. -/
def svResolve : SvCode := under .registry [.read resourceHandlers, .loop (.read resourceTemplates)]

/-- `buildReadResourceResultJson`, 356-457: 408-420, 434-436, 452. -/
def svBuildRead : SvCode := .all [.read capabilities, .read clientCapabilities, .read validationMode]

/-- `collectVisibleResources`, 588-612. -/
def svVisible : SvCode := under .registry [.read resourceUris, .read clientCapabilities, .loop (.all [.read resourceUris, .read resourceMetadata])]

/-- `collectPromptMetadata`, 614-623. -/
def svPrompts : SvCode := under .registry [.loop (.read promptMetadata)]

/-- `registerCancelToken`, 1020-1032; `unregisterCancelToken`, 1034-1042; `cancelById`, 1044-1066. -/
def svRegCancel : SvCode := under .cancel [.read cancelMap, .write cancelMap]
def svUnregCancel : SvCode := under .cancel [.write cancelMap, .write stopSources]
def svCancelById : SvCode := under .cancel [.read cancelMap, .sync cancelled, .write cancelMap, .read stopSources]

/-- `registerStopSource`, 1069-1083; `unregisterStopSource`, 1085-1096. -/
def svRegStop : SvCode := under .cancel [.write stopSources, .read cancelMap, .sync cancelled]
def svUnregStop : SvCode := under .cancel [.read stopSources, .write stopSources]

/-- `handleToolsList`, 668-705. -/
def svToolsList : SvCode := .all [under .registry [.read toolMetadata, .loop (.read toolMetadata)], .read validationMode]

/-- `handleResourcesList`, 707-737; `handleResourceTemplatesList`, 739-776; `handlePromptsList`, 778-807. -/
def svResourcesList : SvCode := .all [svVisible, .read validationMode]
def svTemplatesList : SvCode := .all [under .registry [.loop (.read resourceTemplates)], .read validationMode]
def svPromptsList : SvCode := .all [svPrompts, .read validationMode]

/-- `handleToolsCall`, 809-944. -/
def svToolsCall : SvCode :=
  .all [under .registry [.read toolHandlers, .read toolMetadata], svCreateTask, svGetTask, .spawn .toolTask, svGroupAdd, .read validationMode,
    svRegStop, .call .user, svUnregStop, .sync cancelled, .read validationMode]

/-- The body of a tool task, 882-907. -/
def svToolTask : SvCode := .all [.call .user, .read validationMode, svSetTerminal]

/-- `handleResourcesRead`, 946-1019. -/
def svResourcesRead : SvCode := .all [svResolve, svRegStop, .call .user, .sync cancelled, svBuildRead, svUnregStop]

/-- `handleNotification`, 1139-1186. -/
def svNotice : SvCode := .all [.sync initialized, svCancelById, .read taskStatusHandler, .read validationMode, .read taskStatusHandler, .call .user]

/-- `serializeServerCapabilities`, 1188-1256; `parseClientCapabilities`, 1258-1343; `handleInitialize`, 1345-1367. -/
def svInitialize : SvCode := .all [.write clientCapabilities, .read clientCapabilities, .read capabilities, .read serverInfo]

/-- `handlePromptsGet`, 1369-1394: the handler runs under the guard. -/
def svPromptsGet : SvCode := under .registry [.read promptHandlers, .call .user, .read validationMode]

/-- `handleCompleteRequest`, 1396-1457. -/
def svComplete : SvCode := .all [.read completionHandler, .call .user, .read validationMode]

/-- `rememberOutboundTask`, 1474-1480; `outboundTaskKindFor`, 1482-1489. -/
def svRemember : SvCode := under .outbound [.write outboundTaskKinds]
def svKindFor : SvCode := under .outbound [.read outboundTaskKinds]

/-- A call of the transport, which may report an error at once. -/
def svSend : SvCode := .all [.read transport, .call .onError]

/-- The error handler that the transport is given, 1520-1531. -/
def svOnError : SvCode := .all [.sync SvLoc.keepalive, .read errorCallback, .call .user]

/-- `handleSubscribeRequest`, 1838-1854. -/
def svSubscribe : SvCode := .all [.sync resourcesSubscribed, under .registry [.write subscribedUris]]

/-- `handleUnsubscribeRequest`, 1856-1878: the test of 1873 is made after the guards of 1863, 1866 and 1870 are gone. -/
def svUnsubscribe : SvCode := .all [under .registry [.write subscribedUris], .read subscribedUris, .sync resourcesSubscribed]

/-- `handleCreateMessageRequest`, 1880-1919. -/
def svCreateMessage : SvCode := .all [.read samplingHandler, .read validationMode, .read samplingHandler, .call .user, .sync cancelled, .read validationMode]

/-- `handleSetLogLevel`, 2294-2329. -/
def svSetLogLevel : SvCode := .sync clientLogMin

/-- `dispatchRequest`, 1549-1738: the branches stand one after the other; those not taken are left out. `sendInitializedAndListChangedAsync`, 1740-1768. -/
def svDispatch : SvCode :=
  .all [svRegCancel,
    .all [svInitialize, .read transport, svSend, svSend, svSend, svSend],
    svSetLogLevel, svToolsList,
    .all [svGetTask, .read validationMode], .all [svListTasks, .read validationMode], .all [svGetTask, svWaitPayload, .read validationMode],
    .all [.read capabilities, svSetTerminal, .read validationMode],
    .all [svToolsCall, .sync cancelled], svComplete, svResourcesList, svTemplatesList, svSubscribe, svUnsubscribe, svCreateMessage,
    .all [svResourcesRead, .sync cancelled], svPromptsList, .all [.sync cancelled, svPromptsGet, .sync cancelled],
    svUnregCancel]

/-- `coStart`, 1504-1546: the part before the threads of the transport run, and `Start` of the transport. -/
def svStartWire : SvCode := .all [.write transport, .read transport]
def svStartRun : SvCode := .all [.read transport, .spawn .io]

/-- `coStop`, 1921-1940. -/
def svStop : SvCode := .all [.read keepaliveThread, .sync SvLoc.keepalive, .write keepaliveThread, .read transport, .sync initialized, .read transport, svWaitAll]

/-- `coHandleInitialize`, 1942-1948. -/
def svHandleInitialize : SvCode := .all [.write clientCapabilities, .sync initialized]

/-- `coCallTool`, 1950-1974; `coReadResource`, 2119-2138; `coGetPrompt`, 2140-2156. -/
def svCallTool : SvCode := .all [under .registry [.read toolHandlers], .call .user]
def svReadResource : SvCode := .all [svResolve, .call .user, svBuildRead]
def svGetPrompt : SvCode := under .registry [.read promptHandlers, .call .user]

/-- `coCallToolTask`, `coGetTask`, `coListTasksPaged`, `coGetTaskResult`, `coCancelTask`, 1976-2117. -/
def svTaskCalls : SvCode := .all [svSend, .spawn .user, .read validationMode, svRemember, svKindFor, .read validationMode]

/-- `coSendNotification` and what is made of it, 2158-2197, 2223-2237. -/
def svSendNotification : SvCode := .all [svSend, .spawn .user]

/-- `coNotifyResourceUpdated`, 2199-2221. -/
def svUpdated : SvCode := .all [.sync resourcesSubscribed, under .registry [.read subscribedUris], svSendNotification]

/-- `coLogToClient`, 2239-2292. -/
def svLog : SvCode :=
  .all [.sync clientLogMin, .sync logRateLimitPerSec, under .logRate [.read logWindowStart, .write logWindowStart, .write logWindowCount, .read logWindowCount, .write logWindowCount],
    svSendNotification]

/-- `coRequestRootsList`, `coRequestCreateMessage…`, `coRequestElicitation…`, `coPing`, 2331-2732. -/
def svRequests : SvCode := .all [.read transport, .read clientCapabilities, .read validationMode, svSend, .spawn .user, .read validationMode, svRemember]

/-- `IsRunning`, 2762-2769. -/
def svIsRunning : SvCode := .all [.sync initialized, .read transport]

/-- `RegisterTool` (both), 2786-2820; `UnregisterTool`, 2822-2835. -/
def svRegisterTool : SvCode := .all [under .registry [.write toolHandlers, .read toolMetadata, .write toolMetadata, .read transport], svSendNotification]
def svUnregisterTool : SvCode := .all [under .registry [.write toolHandlers, .write toolMetadata, .read transport], svSendNotification]

/-- `RegisterResource`, 2837-2859; `UnregisterResource`, 2861-2877. -/
def svRegisterResource : SvCode := .all [under .registry [.read resourceHandlers, .write resourceHandlers, .write resourceMetadata, .write resourceUris, .read transport], svSendNotification]
def svUnregisterResource : SvCode := .all [under .registry [.write resourceHandlers, .write resourceMetadata, .read resourceUris, .write resourceUris, .read transport], svSendNotification]

/-- `RegisterPrompt`, 2879-2897; `UnregisterPrompt`, 2899-2912. -/
def svRegisterPrompt : SvCode := .all [under .registry [.write promptHandlers, .write promptMetadata, .read transport], svSendNotification]
def svUnregisterPrompt : SvCode := .all [under .registry [.write promptHandlers, .write promptMetadata, .read transport], svSendNotification]

/-- `RegisterResourceTemplate` (both), 3224-3263; `UnregisterResourceTemplate`, 3265-3282. -/
def svRegisterTemplate : SvCode := .all [under .registry [.read resourceTemplates, .write resourceTemplates, .read transport], svSendNotification]

/-- `ListTools`, 2960-2970; `ListResourceTemplates`, 3284-3295. `ListResources` and `ListPrompts`, 3010-3023, are `svVisible` and `svPrompts`. -/
def svListTools : SvCode := under .registry [.loop (.read toolMetadata)]
def svListTemplates : SvCode := under .registry [.loop (.read resourceTemplates)]

/-- `GetValidationMode`, 2950-2953; `GetCapabilities`, 3307-3311. -/
def svGetters : SvCode := .all [.read validationMode, .read capabilities]

/-- `SetKeepaliveIntervalMs`, 3047-3139, with the thread it starts, 3081-3137. -/
def svSetKeepalive : SvCode :=
  .all [.sync SvLoc.keepalive, .write capabilities, .read keepaliveThread, .sync SvLoc.keepalive, .write keepaliveThread, .sync SvLoc.keepalive, .read keepaliveThread,
    .spawn .keepalive, .write keepaliveThread]

def svKeepalive : SvCode :=
  .loop (.all [.sync SvLoc.keepalive, .loop (under .keepalive [.sync SvLoc.keepalive]), .sync SvLoc.keepalive, .read transport, svSend, .read errorCallback, .call .user, .sync SvLoc.keepalive,
    .read transport, .read errorCallback, .call .user])

/-- The functions that write settings: `SetValidationMode`, 2945-2948; `SetSamplingHandler`, 3030-3035; `SetCompletionHandler`, 3037-3045; `SetKeepaliveFailureThreshold`, 3141-3156;
`SetLoggingRateLimitPerSecond`, 3158-3185; `SetErrorHandler`, 3297-3300; `SetTaskStatusHandler`, 3302-3305; `SetCapabilities`, 3313-3316; `SetResourceReadChunkingMaxBytes`, 3318-3338. -/
def svSetValidationMode : SvCode := .write validationMode
def svSetSampling : SvCode := .all [.write samplingHandler, .write capabilities]
def svSetCompletion : SvCode := .all [.write completionHandler, .read completionHandler, .write capabilities]
def svSetThreshold : SvCode := .all [.sync SvLoc.keepalive, .write capabilities]
def svSetLogRate : SvCode := .all [.sync logRateLimitPerSec, .write capabilities, under .logRate [.write logWindowStart, .write logWindowCount]]
def svSetError : SvCode := .write errorCallback
def svSetTaskStatus : SvCode := .write taskStatusHandler
def svSetCapabilities : SvCode := .write capabilities
def svSetChunking : SvCode := .all [.read capabilities, .write capabilities]

def svSetters : List SvCode := [svSetValidationMode, svSetSampling, svSetCompletion, svSetThreshold, svSetLogRate, svSetError, svSetTaskStatus, svSetCapabilities, svSetChunking]

/-- All that may be called besides. `HandleJSONRPC`, 2771-2777, is the dispatcher. -/
def svServices : List SvCode :=
  [.call .dispatch, svHandleInitialize, svStop, svCallTool, svReadResource, svGetPrompt, svTaskCalls, svSendNotification, svUpdated, svLog, svRequests, svIsRunning,
    svRegisterTool, svUnregisterTool, svRegisterResource, svUnregisterResource, svRegisterPrompt, svUnregisterPrompt, svRegisterTemplate,
    svListTools, svVisible, svListTemplates, svPrompts, svGetters]

/-- The functions that are called or run as threads; with `late`, the settings are also changed, a transport is also set, and the keepalive also switched, at any time and by any thread. -/
def svProg (late : Bool) : SvFn → SvCode
  | .user => .loop (.all (svServices ++ (if late then svSetters ++ [svStartWire, svStartRun, svSetKeepalive] else []) ++ [.spawn .user]))
  | .io => .loop (.all [.spawn .dispatch, .call .dispatch, .call .notice, .call .onError, .spawn .io])
  | .dispatch => svDispatch
  | .notice => svNotice
  | .onError => svOnError
  | .toolTask => svToolTask
  | .keepalive => svKeepalive

/-- A program that makes a server (the constructor, 1111-1136, 2735-2737), makes its settings, in any order, then calls `Start`, and then uses the server from as many threads as it likes. -/
def svSetup : List SvCode := [.write serverInfo, .write capabilities, under .store [.write statusCallback], .loop (.all svSetters), svStartWire]
def svUse : List SvCode := [svStartRun, .call .user]

end Verif.Race
