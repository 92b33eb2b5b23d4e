import Verif.Model.Services
import Verif.Model.Drivers

/-! The node manager: the services it hosts over a history of control RPCs, the traffic it starts
and the logs it hands out, in a process that may hold several node managers. -/

namespace Distbench.Node
open Distbench.Drivers Distbench.Services

/-- What a node reads of `DistributedSystemDescription`: the services and the driver options,
`default_protocol`, `overload_limits.max_threads` and the names of the action lists.
Code: distbench_node_manager.cc:55-170; traffic_config.proto. -/
structure Config where
  drivers : DriverConfig
  protocol : Str
  maxThreads : Int
  lists : List Str
  deriving DecidableEq, Repr

/-- Something an engine records while traffic runs: an RPC sample to a peer
(`partial_logs`), a metric of an activity (`cumulative_activity_logs_`) or the trace of a replay
(`replay_logs_`); `none` is a trace whose contents were moved out.
Code: distbench_engine.cc:921-975. -/
inductive Record where
  | rpc (peer : Str) (sample : Nat)
  | activity (name : Str) (metric : Nat)
  | replay (trace : Option Nat)
  deriving DecidableEq, Repr

/-- `DistBenchEngine`, as far as the node manager is concerned: the configuration and the service
type it was initialised with (distbench_engine.cc 660-701), its protocol driver, `service_map_`
(name and address of each peer), whether `engine_main_thread_` is joinable,
`cancelation_reason_` (`none` until `canceled_` is notified) and what it has recorded. -/
structure Engine where
  config : Config
  serviceType : Str
  driver : Driver
  peers : List (Str × Str) := []
  joinable : Bool := false
  reason : Option Str := none
  records : List Record := []
  deriving DecidableEq, Repr

/-- `NodeManager`: `traffic_config_` and `service_engines_` (distbench_node_manager.h 102-106), a
`std::map`, in the order of the keys. -/
structure Node where
  config : Config := ⟨⟨[], []⟩, [], 0, []⟩
  engines : List (Str × Engine) := []
  deriving DecidableEq, Repr

/-- A process: the node managers it has created, `none` once destroyed, and the one that the
global `alias_resolver_` (protocol_driver_allocator.cc 36-43) captures, if it is set.  Several node
managers in one process: distbench_busybox.cc 325-345. -/
structure Process where
  nodes : List (Option Node) := []
  resolver : Option Nat := none
  deriving DecidableEq, Repr

/-- What happens outside the node manager during `ConfigureNode`: the drivers compiled in, the
initialisation of the real drivers, the data-plane device, `DistBenchEngine::Initialize` for a
service, and `SocketAddressForDevice` for it.  Code: distbench_node_manager.cc:55-170. -/
structure World where
  extra : List Str
  init : List Nat → Options → Outcome Unit
  netdev : Str
  start : Str → Outcome Unit
  socket : Str → Outcome Unit

/-- The calls made to the node managers of a process, and what engines record in between.  The
list of `introduce` is the endpoint map sent, `connect` the outcome of `ConnectToPeers` for each
service.  Code: distbench_node_manager.cc:47-273. -/
inductive Op where
  | create
  | destroy (i : Nat)
  | configure (i : Nat) (w : World) (config : Config) (services : List Str)
  | introduce (i : Nat) (connect : Str → Outcome Unit) (peers : List (Str × Str))
  | run (i : Nat)
  | record (i : Nat) (name : Str) (r : Record)
  | cancel (i : Nat) (reason : Str)
  | collect (i : Nat) (clear : Bool)

/-- One entry of `instance_logs`: `engine_error_message` and the logs.
Code: distbench_node_manager.cc:208-233; distbench_engine.cc:940-975. -/
structure Log where
  error : Option Str
  records : List Record
  deriving DecidableEq, Repr

/-- What a call returns and does: the error status (`none` for OK), the services whose action list
it started, and the logs it returns.  Code: distbench_node_manager.cc:55-249. -/
structure Reply where
  error : Option String := none
  started : List Str := []
  logs : List (Str × Log) := []
  deriving DecidableEq, Repr

/-- Inserts an entry with a key that is not in the map, in the order of the keys.
Code: distbench_node_manager.cc:152-170. -/
def place {α : Type} (n : Str) (e : α) : List (Str × α) → List (Str × α)
  | [] => [(n, e)]
  | x :: rest => if n < x.1 then (n, e) :: x :: rest else x :: place n e rest

/-- `service_engines_[name] = std::move(engine)`.  Code: distbench_node_manager.cc:152-170. -/
def put {α : Type} (l : List (Str × α)) (n : Str) (e : α) : List (Str × α) :=
  place n e (l.filter fun x => decide (x.1 ≠ n))

/-- `absl::StrSplit(service_name, '/')[0]`.  Code: distbench_node_manager.cc:55-119. -/
def firstPart (name : Str) : Str := name.takeWhile (· ≠ '/')

/-- The node manager made as number `i`, if it still exists.
Code: distbench_node_manager.cc:47-53, 275-285. -/
def Process.node (p : Process) (i : Nat) : Option Node := (p.nodes[i]?).join

/-- The node manager after a change.  Code: distbench_node_manager.cc:47-273. -/
def Process.set (p : Process) (i : Nat) (n : Node) : Process := { p with nodes := p.nodes.set i (some n) }

/-- The resolver as `AllocateProtocolDriver` sees it: it reads the configuration that the captured
node manager has at that time, distbench_node_manager.cc 34-53. -/
def Process.resolve (p : Process) : Option (Str → Outcome Options) :=
  p.resolver.map fun j => resolveAlias (match p.node j with | some n => n.config.drivers.table | none => [])

/-- `AllocService`, distbench_node_manager.cc 152-170, up to the engine it makes.  Allocation
returns within five nested calls (`C50_terminates`). -/
def allocService (resolve : Option (Str → Outcome Options)) (w : World) (config : Config) (name : Str) :
    Outcome Engine :=
  (optionsFor config.drivers (firstPart name) config.protocol w.netdev).bind fun o =>
  ((allocate ⟨w.extra, resolve, w.init⟩ 5 0 [] o).getD .ub).bind fun d =>
  (w.start name).bind fun _ =>
  .ok { config := config, serviceType := firstPart name, driver := d }

/-- The loop of `ConfigureNode`, distbench_node_manager.cc 66-117, with the engines made so far.
The first component of the result is the error, if any.  Simplification: the prefixes
`AllocService failure` and `SocketAddressForDevice failure` are left out. -/
def configureLoop (resolve : Option (Str → Outcome Options)) (w : World) (config : Config) :
    List Str → List (Str × Engine) → Outcome (Option String × List (Str × Engine))
  | [], engines => .ok (none, engines)
  | name :: rest, engines =>
    if '/' ∉ name then .crash
    else
      match getGridIndexFromName name with
      | .ok _ =>
        match allocService resolve w config name with
        | .ok e =>
          match w.socket name with
          | .ok _ => configureLoop resolve w config rest (put engines name e)
          | .error m => .ok (some m, put engines name e)
          | .ub => .ub
          | .crash => .crash
        | .error m => .ok (some m, engines)
        | .ub => .ub
        | .crash => .crash
      | .error m => .error m
      | .ub => .ub
      | .crash => .crash

/-- distbench_node_manager.cc 60-61. -/
def badThreads : String := "overload_limits.max_threads must be positive."

/-- `NodeManager::ConfigureNode`, distbench_node_manager.cc 55-119.  `traffic_config_` is assigned
before anything is checked, and the engines are cleared before the new ones are made.
Simplification: node managers of one process are configured one after the other; at the same time,
the resolver of one would read the configuration of another while it is being assigned. -/
def configure (p : Process) (i : Nat) (w : World) (config : Config) (services : List Str) (n : Node) :
    Outcome (Reply × Process) :=
  let p1 := p.set i { n with config := config }
  if config.maxThreads ≤ 0 then .ok ({ error := some badThreads }, p1)
  else
    (configureLoop p1.resolve w config services []).bind fun r =>
      .ok ({ error := r.1 }, p.set i { config := config, engines := r.2 })

/-- distbench_engine.cc 707. -/
def noPeers : String := "No peers configured."

/-- The loop of `NodeManager::IntroducePeers`, distbench_node_manager.cc 177-184, with
`DistBenchEngine::ConfigurePeers`, distbench_engine.cc 703-711: the map is stored before anything
can fail, and the engines after one that fails are not told. -/
def introduceLoop (connect : Str → Outcome Unit) (peers : List (Str × Str)) :
    List (Str × Engine) → Outcome (Option String × List (Str × Engine))
  | [] => .ok (none, [])
  | (name, e) :: rest =>
    if peers = [] then .ok (some noPeers, (name, { e with peers := peers }) :: rest)
    else
      match connect name with
      | .ok _ =>
        (introduceLoop connect peers rest).bind fun r => .ok (r.1, (name, { e with peers := peers }) :: r.2)
      | .error m => .ok (some m, (name, { e with peers := peers }) :: rest)
      | .ub => .ub
      | .crash => .crash

/-- distbench_node_manager.cc 197-199. -/
def runFailure : String := "RunTraffic failure"

/-- The first loop of `NodeManager::RunTraffic`, distbench_node_manager.cc 195-200, with
`DistBenchEngine::RunTraffic`, distbench_engine.cc 876-902: the services started, whether all
engines accepted, and the engines after it.  Assigning to a `std::thread` that is joinable calls
`std::terminate`. -/
def startLoop : List (Str × Engine) → Outcome (List Str × Bool × List (Str × Engine))
  | [] => .ok ([], true, [])
  | (name, e) :: rest =>
    if e.peers = [] then .ok ([], false, (name, e) :: rest)
    else if e.serviceType ∈ e.config.lists then
      if e.joinable then .crash
      else (startLoop rest).bind fun r => .ok (name :: r.1, r.2.1, (name, { e with joinable := true }) :: r.2.2)
    else (startLoop rest).bind fun r => .ok (r.1, r.2.1, (name, e) :: r.2.2)

/-- `DistBenchEngine::FinishTraffic`, distbench_engine.cc 914-919.  Simplification: the join
returns; that action lists end is the matter of other theorems. -/
def finish (engines : List (Str × Engine)) : List (Str × Engine) :=
  engines.map fun x => (x.1, { x.2 with joinable := false })

/-- `NodeManager::RunTraffic`, distbench_node_manager.cc 188-206.  Simplification: one call at a
time on a node. -/
def runTraffic (n : Node) : Outcome (Reply × Node) :=
  (startLoop n.engines).bind fun r =>
    if r.2.1 then .ok ({ started := r.1 }, { n with engines := finish r.2.2 })
    else .ok ({ error := some runFailure, started := r.1 }, { n with engines := r.2.2 })

/-- `std::move(*alog)` in `AddRpcReplayTraceLogs`, distbench_engine.cc 932-938: the engine keeps an
emptied trace; the other logs are copied. -/
def moveOut : Record → Record
  | .replay _ => .replay none
  | r => r

/-- `DistBenchEngine::GetLogs`, distbench_engine.cc 940-968: what it returns. -/
def getLog (e : Engine) : Log := { error := e.reason, records := e.records }

/-- The loop of `GetTrafficResult`, distbench_node_manager.cc 215-221: engines without any log are
left out. -/
def collectLogs (engines : List (Str × Engine)) : List (Str × Log) :=
  engines.filterMap fun x => if (getLog x.2).records = [] then none else some (x.1, getLog x.2)

/-- `NodeManager::GetTrafficResult`, distbench_node_manager.cc 208-235.  Resource usage is left
out; `ClearServices` destroys the engines, which waits for their threads
(distbench_engine.cc 113-126). -/
def getTrafficResult (n : Node) (clear : Bool) : Reply × Node :=
  ({ logs := collectLogs n.engines },
   { n with engines :=
       if clear then [] else n.engines.map fun x => (x.1, { x.2 with records := x.2.records.map moveOut }) })

/-- `NodeManager::CancelTraffic`, distbench_node_manager.cc 237-244, with
`DistBenchEngine::CancelTraffic`, distbench_engine.cc 904-912: the first reason stays. -/
def cancelTraffic (n : Node) (reason : Str) : Node :=
  { n with engines := n.engines.map fun x => (x.1, { x.2 with reason := x.2.reason.or (some reason) }) }

/-- An engine records something.  Code: distbench_engine.cc:1500-1512. -/
def addRecord (n : Node) (name : Str) (r : Record) : Node :=
  { n with engines := n.engines.map fun x =>
      if x.1 = name then (x.1, { x.2 with records := x.2.records ++ [r] }) else x }

/-- One call on a process.  `none`: there is no such node manager or engine.  The constructor is
distbench_node_manager.cc 48-53, the destructor 275-286. -/
def step (p : Process) : Op → Option (Outcome (Reply × Process))
  | .create => some (.ok ({}, { nodes := p.nodes ++ [some {}], resolver := some p.nodes.length }))
  | .destroy i => (p.node i).map fun _ => .ok ({}, { nodes := p.nodes.set i none, resolver := none })
  | .configure i w config services => (p.node i).map (configure p i w config services)
  | .introduce i connect peers => (p.node i).map fun n =>
      (introduceLoop connect peers n.engines).bind fun r => .ok ({ error := r.1 }, p.set i { n with engines := r.2 })
  | .run i => (p.node i).map fun n => (runTraffic n).bind fun r => .ok (r.1, p.set i r.2)
  | .record i name r => (p.node i).bind fun n =>
      if name ∈ n.engines.map (·.1) then some (.ok ({}, p.set i (addRecord n name r))) else none
  | .cancel i reason => (p.node i).map fun n => .ok ({}, p.set i (cancelTraffic n reason))
  | .collect i clear => (p.node i).map fun n =>
      .ok ((getTrafficResult n clear).1, p.set i (getTrafficResult n clear).2)

/-- The histories of a process: the calls so far with their replies, and the state reached.
Code: distbench_node_manager.cc:47-273. -/
inductive Reached : List (Op × Reply) → Process → Prop
  | start : Reached [] {}
  | step {h p op r p'} : Reached h p → step p op = some (.ok (r, p')) → Reached (h ++ [(op, r)]) p'

end Distbench.Node
