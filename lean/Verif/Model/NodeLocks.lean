/-! Model of the locks of a node manager: `mutex_`, which its control calls share or have alone, and
`config_mutex_`, which its start-up holds while it registers. -/

namespace Distbench.NodeLocks

/-- Control calls of a node manager.  `running`: the calls of `RunTraffic` that share `mutex_` until
the traffic is over; `alone`: a call of `ConfigureNode`, `IntroducePeers` or `GetTrafficResult` has it
alone; `waitingRuns`, `waitingAlone`, `waitingCancels`: calls that wait for it; `cancelled`: the
traffic has been told to stop.
Simplification: the calls are counted, and all engines of the node are one.
Code: distbench_node_manager.cc:55-58, 172-175, 188-191, 208-211, 234-242, distbench_node_manager.h:101. -/
structure Calls where
  running : Nat := 0
  alone : Bool := false
  waitingRuns : Nat := 0
  waitingAlone : Nat := 0
  waitingCancels : Nat := 0
  cancelled : Bool := false
  deriving DecidableEq

/-- A call that shares the mutex can have it now.  `overtake`: whether it may pass calls that wait to
have it alone; `absl::Mutex` does not promise that, and its implementation makes the call wait.
Code: `absl::ReaderMutexLock`, distbench_node_manager.cc:191, 237. -/
def Calls.shareable (overtake : Bool) (s : Calls) : Prop :=
  s.alone = false ∧ (overtake = true ∨ s.waitingAlone = 0)

/-- What happens at a node.  `over`: traffic ends that was not told to stop.
Code: distbench_node_manager.cc, at the lines cited in `Step`. -/
inductive Event where
  | call | enter | over | stop | leave | cancel
  deriving DecidableEq

/-- Steps of a node.  Code: distbench_node_manager.cc, at the lines cited at each rule. -/
inductive Step (overtake : Bool) : Calls → Event → Calls → Prop
  /-- `RunTraffic` is called, distbench_node_manager.cc:188. -/
  | callRun {s} : Step overtake s .call { s with waitingRuns := s.waitingRuns + 1 }
  /-- `CancelTraffic` is called, distbench_node_manager.cc:234, 244. -/
  | callCancel {s} : Step overtake s .call { s with waitingCancels := s.waitingCancels + 1 }
  /-- `ConfigureNode`, `IntroducePeers` or `GetTrafficResult` is called,
  distbench_node_manager.cc:55, 172, 208. -/
  | callAlone {s} : Step overtake s .call { s with waitingAlone := s.waitingAlone + 1 }
  /-- `RunTraffic` has the mutex and starts the traffic, distbench_node_manager.cc:191-200. -/
  | run {s n} : s.waitingRuns = n + 1 → s.shareable overtake →
      Step overtake s .enter { s with waitingRuns := n, running := s.running + 1 }
  /-- `FinishTraffic` returns although nobody has told the traffic to stop,
  distbench_node_manager.cc:202-205. -/
  | over {s n} : s.running = n + 1 → s.cancelled = false →
      Step overtake s .over { s with running := n }
  /-- `FinishTraffic` returns because the traffic was told to stop, distbench_node_manager.cc:202-205. -/
  | stop {s n} : s.running = n + 1 → s.cancelled = true →
      Step overtake s .stop { s with running := n }
  /-- A call gets the mutex alone, distbench_node_manager.cc:58, 175, 211. -/
  | alone {s n} : s.waitingAlone = n + 1 → s.alone = false → s.running = 0 →
      Step overtake s .enter { s with waitingAlone := n, alone := true }
  /-- It returns, with new engines or with the old ones, distbench_node_manager.cc:67, 186, 231. -/
  | leave {s} (c : Bool) : s.alone = true → (c = true → s.cancelled = true) →
      Step overtake s .leave { s with alone := false, cancelled := c }
  /-- `CancelTraffic` has the mutex, tells the traffic to stop and returns,
  distbench_node_manager.cc:237-242. -/
  | cancel {s n} : s.waitingCancels = n + 1 → s.shareable overtake →
      Step overtake s .cancel { s with waitingCancels := n, cancelled := true }

/-- Runs of a node from one state to another, with the events.  Code: distbench_node_manager.cc, as for
`Step`. -/
inductive Run (overtake : Bool) : Calls → List Event → Calls → Prop
  | here {s} : Run overtake s [] s
  | step {s e t es u} : Step overtake s e t → Run overtake t es u → Run overtake s (e :: es) u

/-- Where the start-up is.  `registering`: it holds `config_mutex_` and has asked the test sequencer;
`closing`: the registration failed, and it waits for the server to shut down, still with the mutex;
`serves`, `failed`: it has returned, and the mutex is free.
Code: distbench_node_manager.cc:349-366. -/
inductive Phase where
  | registering | closing | serves | failed
  deriving DecidableEq

/-- A node manager that starts.  `naming`: control calls that are to read the name of the node, for
which they need `config_mutex_`; `others`: the other control calls that are being served.
Code: distbench_node_manager.h:97-100, distbench_node_manager.cc:229, 235, 255. -/
structure Startup where
  phase : Phase := .registering
  naming : Nat := 0
  others : Nat := 0
  deriving DecidableEq

/-- Steps of a node manager that starts.  The server serves control calls before the node is
registered.  Code: distbench_node_manager.cc, at the lines cited at each rule. -/
inductive StartStep : Startup → Startup → Prop
  /-- A call of `CancelTraffic`, `GetTrafficResult` or `ShutdownNode` comes,
  distbench_node_manager.cc:208, 234, 250. -/
  | named {s} : s.phase = .registering ∨ s.phase = .serves →
      StartStep s { s with naming := s.naming + 1 }
  /-- Any other call comes, distbench_node_manager.cc:55, 172, 188. -/
  | other {s} : s.phase = .registering ∨ s.phase = .serves →
      StartStep s { s with others := s.others + 1 }
  /-- `NodeAlias`, distbench_node_manager.h:97-100: the mutex is free. -/
  | name {s n} : s.naming = n + 1 → s.phase = .serves ∨ s.phase = .failed →
      StartStep s { s with naming := n, others := s.others + 1 }
  /-- A call returns, distbench_node_manager.cc:231, 242, 257. -/
  | finish {s n} : s.others = n + 1 → StartStep s { s with others := n }
  /-- The test sequencer accepts the node, distbench_node_manager.cc:354-355, 365-366. -/
  | accepted {s} : s.phase = .registering → StartStep s { s with phase := .serves }
  /-- `RegisterNode` fails or its deadline passes, distbench_node_manager.cc:354-360. -/
  | refused {s} : s.phase = .registering → StartStep s { s with phase := .closing }
  /-- `grpc_server_->Shutdown()` returns when no call is being served, and `Initialize` returns the
  error, distbench_node_manager.cc:360-362. -/
  | closed {s} : s.phase = .closing → s.naming = 0 → s.others = 0 →
      StartStep s { s with phase := .failed }

/-- Runs of a node manager that starts.  Code: distbench_node_manager.cc, as for `StartStep`. -/
inductive StartRun : Startup → Startup → Prop
  | here {s} : StartRun s s
  | step {s t u} : StartStep s t → StartRun t u → StartRun s u

end Distbench.NodeLocks
