/-! Model of the locks of the engines of a process: which mutexes each function takes, in which order,
and where its thread waits for something else than a mutex.

A function is a set of words of operations on locks, given by a grammar: a rule for each path through
the function, with the functions it calls, callbacks that drivers call at once included.  Everything
else a function does is left out, so that the grammar has more words than the code has behaviours.
The mutex of the node manager is in `Model/NodeLocks.lean`; condition variables are modelled by a
wait between an unlock and a lock.
Not modelled: locks inside of drivers' libraries and of allocators, which are never held when code of
distbench runs. -/

namespace Distbench.Locks

/-- The mutexes.  `e` is an engine, `l` a run of an action list, `a` an action of it, `r` a run of a
replay trace.  `cancelation`: distbench_engine.h:433; `notification`: of `canceled_`,
distbench_utils.h:55; `replayLogs`: distbench_engine.h:417; `peer`: distbench_engine.h:144;
`bitgen`: distbench_engine.h:446; `cache`: distbench_engine.h:443; `activityLog`:
distbench_engine.h:413; `dictionary`: distbench_engine.h:45; `action`: distbench_engine.h:282;
`reservoir`: distbench_engine.h:291; `iteration`: distbench_engine.h:202; `replay`:
distbench_engine.cc:1085; `pool`: distbench_threadpool.cc:44, 79, 142; `abort`:
distbench_thread_support.cc:31. -/
inductive Lock where
  | cancelation (e : Nat)
  | notification (e : Nat)
  | replayLogs (e : Nat)
  | peer (e service instance_ : Nat)
  | bitgen (e : Nat)
  | cache (e : Nat)
  | activityLog (e : Nat)
  | dictionary (e : Nat)
  | action (l : Nat)
  | reservoir (l : Nat)
  | iteration (l a : Nat)
  | replay (r : Nat)
  | pool (e : Nat)
  | abort
  deriving DecidableEq

/-- What a thread does with locks.  `pause`: it waits for a condition, a notification, another thread
or a time.  Code: `absl::Mutex`, as used in distbench_engine.cc and at the other lines `Lock` cites. -/
inductive Op where
  | acquire (l : Lock)
  | release (l : Lock)
  | pause
  deriving DecidableEq

/-- `absl::MutexLock m(&l); w`.  Code: for example distbench_engine.cc:906-911. -/
def locked (l : Lock) (w : List Op) : List Op := .acquire l :: (w ++ [.release l])

/-- A critical section that waits for a condition, as `Await` does: it unlocks, waits and locks.
Code: distbench_threadpool.cc:156-169, distbench_engine.cc:1180-1205. -/
def waited (l : Lock) : List Op := [.acquire l, .release l, .pause, .acquire l, .release l]

/-- The functions.  `many f` is a loop over `f`, `opt f` an `if`.
Code: distbench_engine.cc, at the lines cited at the rules of `Does`. -/
inductive Fn where
  | many (f : Fn)
  | opt (f : Fn)
  | tryToNotify (e : Nat)
  | cancelTraffic (e : Nat)
  | getIndex (e : Nat)
  | errorIndex (e : Nat)
  | getContents (e : Nat)
  | overrideIndex (l : Nat)
  | responseSize (e : Nat)
  | respond (e l : Nat)
  | finishAction (l : Nat)
  | allDone (e l : Nat)
  | freeIterationState (e : Nat)
  | finishIteration (e l a : Nat)
  | startIteration (e l a : Nat)
  | runRpcs (e l a : Nat)
  | rpc (e l a : Nat)
  | rpcDone (e l a : Nat)
  | recordLatency (e l : Nat)
  | startNewIterations (e l a : Nat)
  | startOpenLoopIteration (e l a : Nat)
  | initiateAction (e l a : Nat)
  | visit (e l : Nat)
  | look (l : Nat)
  | round (e l : Nat)
  | waitForPending (l : Nat)
  | cancelled (e l : Nat)
  | peerLog (e : Nat)
  | merge (e l : Nat)
  | runActionList (e l : Nat)
  | launch
  | addTask (e : Nat)
  | replayDone (e r : Nat)
  | replayRound (e r : Nat)
  | runReplay (e r : Nat)
  | task (e : Nat)
  | rpcHandler (e : Nat)
  | poolRound (e : Nat)
  | getLogs (e : Nat)

/-- `Does f w`: on some path the function `f` does `w`.
Code: distbench_engine.cc, at the lines cited at each rule. -/
inductive Does : Fn → List Op → Prop
  /-- A loop that ends.  Code: loops of the functions below. -/
  | done {f} : Does (.many f) []
  /-- One pass of a loop.  Code: loops of the functions below. -/
  | next {f w v} : Does f w → Does (.many f) v → Does (.many f) (w ++ v)
  /-- Code: conditional statements of the functions below. -/
  | no {f} : Does (.opt f) []
  /-- Code: conditional statements of the functions below. -/
  | yes {f w} : Does f w → Does (.opt f) w
  /-- `TryToNotify`, distbench_utils.h:42: already notified. -/
  | notified {e} : Does (.tryToNotify e) []
  /-- `TryToNotify`, distbench_utils.h:43-47. -/
  | notify {e} : Does (.tryToNotify e) (locked (.notification e) [])
  /-- `CancelTraffic`, distbench_engine.cc:904-912. -/
  | cancelTraffic {e w} : Does (.tryToNotify e) w →
      Does (.cancelTraffic e) (locked (.cancelation e) w)
  /-- `ThreadSafeDictionary::GetIndex`, distbench_engine.cc:73-82. -/
  | getIndex {e} : Does (.getIndex e) (locked (.dictionary e) [])
  /-- An RPC without error, distbench_engine.cc:1755, 1766. -/
  | noError {e} : Does (.errorIndex e) []
  /-- The error of an RPC is looked up, distbench_engine.cc:1756, 1768. -/
  | error {e w} : Does (.getIndex e) w → Does (.errorIndex e) w
  /-- `ThreadSafeDictionary::GetContents`, distbench_engine.cc:84-87. -/
  | getContents {e} : Does (.getContents e) (locked (.dictionary e) [])
  /-- `GetOverrideIndex`, distbench_engine.h:271-274. -/
  | overrideIndex {l} : Does (.overrideIndex l) (locked (.action l) [])
  /-- `ComputeResponseSize` without a draw, distbench_engine.cc:1530-1547. -/
  | fixedSize {e} : Does (.responseSize e) []
  /-- `ComputeResponseSize` with a draw, distbench_engine.cc:1549-1551. -/
  | drawnSize {e} : Does (.responseSize e) (locked (.bitgen e) [])
  /-- The response to the request that started a list, distbench_engine.cc:1412-1421, 1492-1496.
  `SendResponseIfSet` of the drivers takes none of these locks. -/
  | respond {e l w v} : Does (.opt (.overrideIndex l)) w → Does (.responseSize e) v →
      Does (.respond e l) (w ++ v)
  /-- `FinishAction`, distbench_engine.cc:1518-1528. -/
  | finishAction {l} : Does (.finishAction l) (locked (.action l) [])
  /-- `all_done_callback`, distbench_engine.cc:1406-1436. -/
  | allDone {e l u v w} : Does (.opt (.respond e l)) u → Does (.opt (.cancelTraffic e)) v →
      Does (.finishAction l) w → Does (.allDone e l) (u ++ v ++ w)
  /-- `FreeIterationState`, distbench_engine.cc:2031-2043. -/
  | freeIterationState {e} : Does (.freeIterationState e) (locked (.cache e) [])
  /-- `FinishIteration` of the last iteration, distbench_engine.cc:2051-2085. -/
  | lastIteration {e l a u v} : Does (.freeIterationState e) u → Does (.allDone e l) v →
      Does (.finishIteration e l a) (locked (.iteration l a) [] ++ u ++ v)
  /-- `FinishIteration` that starts another one, distbench_engine.cc:2051-2074, 2086-2087. -/
  | nextIteration {e l a w} : Does (.startIteration e l a) w →
      Does (.finishIteration e l a) (locked (.iteration l a) [] ++ w)
  /-- `FinishIteration` while others are running, distbench_engine.cc:2051-2074, 2088-2090. -/
  | otherIteration {e l a w} : Does (.freeIterationState e) w →
      Does (.finishIteration e l a) (locked (.iteration l a) [] ++ w)
  /-- `StartIteration` of a replay or of an action list, distbench_engine.cc:1809, 1853. -/
  | startTask {e l a w} : Does (.addTask e) w → Does (.startIteration e l a) w
  /-- `StartIteration` of an RPC, distbench_engine.cc:1876-1890, 2242-2256. -/
  | startRpcs {e l a w} : Does (.runRpcs e l a) w → Does (.startIteration e l a) w
  /-- `StartIteration` of an activity or of a response size, distbench_engine.cc:1892-1909. -/
  | startInline {e l a w} : Does (.finishIteration e l a) w → Does (.startIteration e l a) w
  /-- `RunRpcActionIterationCommon` without targets, distbench_engine.cc:2108-2111. -/
  | noTargets {e l a w} : Does (.finishIteration e l a) w → Does (.runRpcs e l a) w
  /-- `RunRpcActionIterationCommon`, distbench_engine.cc:2179-2239. -/
  | targets {e l a w} : Does (.many (.rpc e l a)) w → Does (.runRpcs e l a) w
  /-- One target, distbench_engine.cc:2179-2239.  The driver may call the callback at once. -/
  | rpc {e l a u v} : Does (.opt (.rpcDone e l a)) u → Does (.opt (.cancelTraffic e)) v →
      Does (.rpc e l a) (u ++ v)
  /-- The callback of an RPC, distbench_engine.cc:2205-2229. -/
  | rpcDone {e l a u v w} : Does (.opt (.cancelTraffic e)) u → Does (.recordLatency e l) v →
      Does (.opt (.finishIteration e l a)) w → Does (.rpcDone e l a) (u ++ v ++ w)
  /-- `RecordLatency`, distbench_engine.cc:1692-1700. -/
  | initialSample {e l w} : Does (.errorIndex e) w → Does (.recordLatency e l) w
  /-- `RecordLatency` that drops the sample, distbench_engine.cc:1701-1712. -/
  | droppedSample {e l} : Does (.recordLatency e l) []
  /-- `RecordLatency` that replaces a sample, distbench_engine.cc:1713-1726: it waits for the initial
  samples and takes the lock. -/
  | replacedSample {e l w} : Does (.opt (.errorIndex e)) w →
      Does (.recordLatency e l) (.pause :: locked (.reservoir l) w)
  /-- `RecordLatency` of unlimited samples, distbench_engine.cc:1731-1758. -/
  | unlimitedSample {e l w} : Does (.errorIndex e) w →
      Does (.recordLatency e l) (locked (.action l) w)
  /-- `StartNewIterations`, distbench_engine.cc:2000-2018. -/
  | startNewIterations {e l a w} : Does (.many (.startIteration e l a)) w →
      Does (.startNewIterations e l a) (locked (.cache e) [] ++ w)
  /-- `StartOpenLoopIteration`, distbench_engine.cc:1970-1994. -/
  | startOpenLoopIteration {e l a w} : Does (.opt (.startNewIterations e l a)) w →
      Does (.startOpenLoopIteration e l a) (locked (.iteration l a) [] ++ w)
  /-- `InitiateAction` that gives up, distbench_engine.cc:1863-1875. -/
  | giveUp {e l a} : Does (.initiateAction e l a) []
  /-- `InitiateAction` of an open loop, distbench_engine.cc:1927-1958. -/
  | initiateOpenLoop {e l a} : Does (.initiateAction e l a) (locked (.iteration l a) [])
  /-- `InitiateAction` of a closed loop, distbench_engine.cc:1927-1934, 1960-1967. -/
  | initiateClosedLoop {e l a w} : Does (.startNewIterations e l a) w →
      Does (.initiateAction e l a) (locked (.iteration l a) [] ++ locked (.iteration l a) [] ++ w)
  /-- `RunActionList` starts an iteration of an open loop, distbench_engine.cc:1365. -/
  | visitOpenLoop {e l a w} : Does (.startOpenLoopIteration e l a) w → Does (.visit e l) w
  /-- `RunActionList` runs an activity, distbench_engine.cc:1363, 1996-1998. -/
  | visitActivity {e l a w} : Does (.startNewIterations e l a) w → Does (.visit e l) w
  /-- `RunActionList` delays an action, distbench_engine.cc:1393-1395. -/
  | visitDelay {e l a} : Does (.visit e l) (locked (.iteration l a) [])
  /-- `RunActionList` skips an action, distbench_engine.cc:1450-1452. -/
  | visitSkip {e l w} : Does (.allDone e l) w → Does (.visit e l) w
  /-- `RunActionList` starts an action, distbench_engine.cc:1453-1457. -/
  | visitStart {e l a w} : Does (.initiateAction e l a) w → Does (.visit e l) w
  /-- `RunActionList` looks whether an action has finished, distbench_engine.cc:1461-1469. -/
  | look {l a} : Does (.look l) (locked (.iteration l a) [])
  /-- A pass of the loop of `RunActionList`, distbench_engine.cc:1357-1480. -/
  | round {e l u v} : Does (.many (.visit e l)) u → Does (.many (.look l)) v →
      Does (.round e l) (u ++ v ++ (.pause :: locked (.action l) []))
  /-- A pass of `WaitForAllPendingActions`, distbench_engine.cc:1631-1641. -/
  | waitForPending {l} : Does (.waitForPending l) (.pause :: locked (.action l) [])
  /-- `CancelActivities`, distbench_engine.cc:1572-1596, and `WaitForAllPendingActions`,
  distbench_engine.cc:1485-1487. -/
  | cancelled {e l u v w} : Does (.many (.allDone e l)) u → Does (.opt (.finishAction l)) v →
      Does (.many (.waitForPending l)) w → Does (.cancelled e l) (u ++ v ++ w)
  /-- The log of a peer, distbench_engine.cc:947, 1508. -/
  | peerLog {e i j} : Does (.peerLog e) (locked (.peer e i j) [])
  /-- Merging logs, distbench_engine.cc:1502-1512, 1645-1646: a lock in a lock. -/
  | merge {e l w} : Does (.many (.peerLog e)) w →
      Does (.merge e l) (locked (.action l) [] ++ locked (.action l) w)
  /-- `RunActionList`, distbench_engine.cc:1316-1516.  The loop ends when all actions have finished or
  when traffic is cancelled. -/
  | runActionList {e l u v v' w x y z} : Does (.opt (.finishAction l)) u →
      Does (.many (.round e l)) v → Does (.many (.visit e l)) v' → Does (.many (.look l)) w →
      Does (.opt (.cancelled e l)) x → Does (.opt (.respond e l)) y → Does (.opt (.merge e l)) z →
      Does (.runActionList e l) (u ++ v ++ v' ++ w ++ x ++ y ++ z ++ locked (.activityLog e) [])
  /-- `RunRegisteredThread`, distbench_thread_support.cc:55-86, in the thread that calls it: it may
  wait for the callback. -/
  | launch : Does .launch (locked .abort [] ++ [.pause])
  /-- `AddTask` of a pool, distbench_threadpool.cc:56-68, 121-124, 150-177. -/
  | addTask {e w} : Does (.opt .launch) w → Does (.addTask e) (waited (.pool e) ++ w)
  /-- The callback of an RPC of a replay, distbench_engine.cc:1211-1225, 1160-1174. -/
  | replayDone {e r w} : Does (.errorIndex e) w →
      Does (.replayDone e r) (w ++ locked (.replay r) [])
  /-- A pass of `Run` that only waits, distbench_engine.cc:1180-1199. -/
  | replayWaits {e r} : Does (.replayRound e r) (waited (.replay r))
  /-- A pass of `Run` that starts an RPC, distbench_engine.cc:1180-1252, 1149-1158.  The driver may call
  the callback at once. -/
  | replayStarts {e r w} : Does (.opt (.replayDone e r)) w →
      Does (.replayRound e r) (waited (.replay r) ++ w ++ locked (.replay r) [])
  /-- `RunRpcReplayTrace`, distbench_engine.cc:1303-1308, 1099-1147, 1176-1256. -/
  | runReplay {e r w} : Does (.many (.replayRound e r)) w →
      Does (.runReplay e r) (locked (.replay r) [] ++ w ++ locked (.replay r) [])
  /-- An action list as a task of the pool, distbench_engine.cc:1853-1860. -/
  | listTask {e l l' a v w} : Does (.runActionList e l') v → Does (.finishIteration e l a) w →
      Does (.task e) (v ++ w)
  /-- A replay as a task of the pool, distbench_engine.cc:1809-1840. -/
  | replayTask {e r l a v w} : Does (.runReplay e r) v → Does (.finishIteration e l a) w →
      Does (.task e) (v ++ locked (.replayLogs e) [] ++ w)
  /-- The handler of a request as a task of a pool, distbench_engine.cc:1044-1048. -/
  | handlerTask {e l w} : Does (.runActionList e l) w → Does (.task e) w
  /-- `RpcHandler` of a request that is answered at once, distbench_engine.cc:977-1037.  Cancelled
  traffic: the response is sent under the lock. -/
  | handlerAnswers {e v w} : Does (.responseSize e) v → Does (.opt (.addTask e)) w →
      Does (.rpcHandler e) (locked (.cancelation e) [] ++ v ++ w)
  /-- `RpcHandler` on a dedicated thread, distbench_engine.cc:1039-1042. -/
  | handlerRuns {e l w} : Does (.runActionList e l) w →
      Does (.rpcHandler e) (locked (.cancelation e) [] ++ w)
  /-- `RpcHandler` of a replayed RPC, whose work is to sleep, distbench_engine.cc:999-1005,
  protocol_driver_grpc.cc:316-319. -/
  | handlerSleeps {e} : Does (.rpcHandler e) (locked (.cancelation e) [] ++ [.pause])
  /-- A pass of a thread of a pool, distbench_threadpool.cc:90-108, 195-244. -/
  | poolRound {e u v w} : Does (.opt (.task e)) u → Does (.opt .launch) v → Does (.opt .launch) w →
      Does (.poolRound e) (u ++ waited (.pool e) ++ v ++ w)
  /-- `GetLogs`, distbench_engine.cc:940-969. -/
  | getLogs {e u v} : Does (.many (.peerLog e)) u → Does (.getContents e) v →
      Does (.getLogs e) (u ++ v ++ locked (.replayLogs e) [])

/-- What a thread of the process does as a whole, and again and again.
Code: distbench_engine.cc and distbench_threadpool.cc, at the lines cited at each rule. -/
inductive ThreadCode : List Op → Prop
  /-- The main thread of an engine, distbench_engine.cc:894-896, distbench_thread_support.cc:74-76. -/
  | main {e l w} : Does (.runActionList e l) w → ThreadCode (w ++ locked .abort [])
  /-- A thread of a pool, distbench_threadpool.cc:90-110, 195-244. -/
  | pool {e w} : Does (.many (.poolRound e)) w → ThreadCode (w ++ locked .abort [])
  /-- A thread of a server, protocol_driver_grpc.cc:300-325, 590-613. -/
  | server {e w} : Does (.many (.rpcHandler e)) w → ThreadCode w
  /-- A thread of a client, protocol_driver_grpc.cc:211-232, 255-280, 546-567. -/
  | client {e l a w} : Does (.many (.rpcDone e l a)) w → ThreadCode w
  /-- A thread of a client, for a replay, protocol_driver_grpc.cc:211-232, 255-280, 546-567. -/
  | replayClient {e r w} : Does (.many (.replayDone e r)) w → ThreadCode w
  /-- A call of `CancelTraffic`, distbench_node_manager.cc:234-242. -/
  | cancel {e w} : Does (.many (.cancelTraffic e)) w → ThreadCode w
  /-- A call of `GetTrafficResult`, distbench_node_manager.cc:208-232. -/
  | results {e w} : Does (.many (.getLogs e)) w → ThreadCode w
  /-- A thread that waits for a handler, or for another thread to end, protocol_driver_grpc.cc:314,
  605, 851, distbench_engine.cc:914-919. -/
  | wait : ThreadCode [.pause]
  /-- The destructor of a pool, distbench_threadpool.cc:50-54, 113-117, 259-262. -/
  | destroyPool {e} : ThreadCode (waited (.pool e))
  /-- One after the other.  Code: threads of servers and of clients. -/
  | seq {v w} : ThreadCode v → ThreadCode w → ThreadCode (v ++ w)

/-- A thread: the locks it holds, and what it has yet to do.  Code: `std::thread`,
distbench_thread_support.cc:64. -/
structure Thread where
  held : List Lock
  rest : List Op

/-- Steps of the threads of a process, in any order.  Code: `absl::Mutex`, as used in
distbench_engine.cc. -/
inductive Step : List Thread → List Thread → Prop
  /-- A thread begins, distbench_thread_support.cc:64. -/
  | start {s w} : ThreadCode w → Step s (s ++ [⟨[], w⟩])
  /-- A mutex that nobody holds is taken.  Code: `absl::Mutex::Lock`. -/
  | acquire {pre post held l w} :
      (∀ t ∈ pre ++ ⟨held, .acquire l :: w⟩ :: post, l ∉ t.held) →
      Step (pre ++ ⟨held, .acquire l :: w⟩ :: post) (pre ++ ⟨l :: held, w⟩ :: post)
  /-- Code: `absl::Mutex::Unlock`. -/
  | release {pre post held l w} :
      Step (pre ++ ⟨held, .release l :: w⟩ :: post) (pre ++ ⟨held.erase l, w⟩ :: post)
  /-- What the thread waited for has come.  Code: `absl::Mutex::Await`, `absl::Notification`. -/
  | resume {pre post held w} :
      Step (pre ++ ⟨held, .pause :: w⟩ :: post) (pre ++ ⟨held, w⟩ :: post)

/-- The states the threads of a process can get into.  Code: distbench_engine.cc, as
for `Step`. -/
inductive Reach : List Thread → Prop
  | start : Reach []
  | step {s t} : Reach s → Step s t → Reach t

end Distbench.Locks
