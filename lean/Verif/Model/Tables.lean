import Verif.Model.Services
import Verif.Model.Distribution
import Verif.Model.Fanout

/-! Model of the tables the engine builds from a traffic configuration, and of the validation it
performs while doing so (distbench_engine.cc:128-183, 319-660, 2519-2656; activity.cc:98-139;
distbench_utils.cc:743-790, 828-859). -/

namespace Distbench.Tables
open Services

/-- `message PayloadSpec`, traffic_config.proto:104-109. -/
structure PayloadSpec where
  name : Str := []
  sizeDistributionName : Option Str := none
  size : Option Int := none
  deriving DecidableEq, Repr

/-- `message RpcSpec`, traffic_config.proto:111-124. -/
structure RpcSpec where
  name : Str := []
  client : List Str := []
  server : Str := []
  requestPayloadName : Option Str := none
  responsePayloadName : Option Str := none
  fanoutFilter : Str := "all".toList
  tracingInterval : Int := 0
  distributionConfigName : Option Str := none
  multiServerChannelName : Option Str := none
  deriving DecidableEq, Repr

/-- `message Iterations`, traffic_config.proto:126-135. -/
structure Iterations where
  maxIterationCount : Option Int := none
  maxDurationUs : Option Int := none
  maxParallelIterations : Int := 1
  openLoopIntervalNs : Option Int := none
  openLoopIntervalDistribution : Str := "constant".toList
  warmupIterations : Int := 0
  deriving DecidableEq, Repr

/-- The `oneof action`, traffic_config.proto:198-205. -/
inductive ActionKind where
  | none
  | rpc (name : Str)
  | actionList (name : Str)
  | activity (name : Str)
  | replay (name : Str)
  deriving DecidableEq, Repr

/-- `message Action`, traffic_config.proto:193-217. -/
structure Action where
  name : Str := []
  dependencies : List Str := []
  delayDistributionName : Option Str := none
  iterations : Option Iterations := none
  kind : ActionKind := .none
  sendResponseWhenDone : Bool := false
  cancelTrafficWhenDone : Bool := false
  predicates : List Str := []
  requestPayloadOverride : Option Str := none
  responsePayloadOverride : Option Str := none
  deriving DecidableEq, Repr

/-- `message ActionList`, traffic_config.proto:219-236.  Simplification: the probabilities are
kept as the rational values of the floats. -/
structure ActionList where
  name : Str := []
  actionNames : List Str := []
  maxRpcSamples : Int := 0
  predicateProbabilities : List (Str × Rat) := []
  deriving DecidableEq

/-- `message ActivityConfig`, traffic_config.proto:137-140. -/
structure ActivityConfig where
  name : Str := []
  settings : List NamedSetting := []
  deriving DecidableEq, Repr

/-- The fields of `message RpcReplayTraceRecord`, traffic_config.proto:142-181, that validation
looks at. -/
structure TraceRecord where
  clientInstance : Option Int := none
  serverInstance : Option Int := none
  priorRpcDistances : List Int := []
  deriving DecidableEq, Repr

/-- `message RpcReplayTrace`, traffic_config.proto:183-190. -/
structure RpcReplayTrace where
  name : Str := []
  client : Option Str := none
  server : Option Str := none
  defaults : TraceRecord := {}
  records : List TraceRecord := []
  deriving DecidableEq, Repr

/-- The part of `message DistributedSystemDescription`, traffic_config.proto:253-294, the tables
are built from.  The multi-server channels of a service are given by name only. -/
structure Config where
  services : List ServiceSpec := []
  channels : Str → List Str := fun _ => []
  payloads : List PayloadSpec := []
  rpcs : List RpcSpec := []
  activities : List ActivityConfig := []
  actions : List Action := []
  actionLists : List ActionList := []
  rpcDistributions : List Dist.Config := []
  delayDistributions : List Dist.Config := []
  sizeDistributions : List Dist.Config := []
  traces : List RpcReplayTrace := []

/-- Numeric primitives the tables depend on: float rounding and `absl::SimpleAtof`.
Code: activity.cc:98-139; joint_distribution_sample_generator.cc:35-110. -/
structure Env where
  rnd : Rat → Rat
  atof : Str → Option Rat

/-! ### sample generators -/

/-- The field lists at distbench_engine.cc:52-57. -/
def delayFields : List Str := ["action_delay_ns".toList]
/-- The fields of a one-dimensional size distribution, distbench_engine.cc:52-57. -/
def fields1d : List Str := ["payload_size".toList]
/-- The fields of a two-dimensional size distribution, distbench_engine.cc:52-57. -/
def fields2d : List Str := ["request_payload_size".toList, "response_payload_size".toList]

/-- Two-dimensional first, then one-dimensional, distbench_engine.cc:2566-2575 and 2620-2628. -/
def canonicalSize (e : Env) (c : Dist.Config) : Outcome Dist.Config :=
  match Dist.canonical e.rnd c fields2d with
  | .error _ => Dist.canonical e.rnd c fields1d
  | r => r

/-- A generator table: `…_distribution_generators_map_` with the vector of generators.
Code: distbench_engine.h:421-431. -/
structure Gens where
  map : NameMap := []
  gens : List Dist.Gen := []

/-- One of the three loops of `InitializeSampleGenerators`, distbench_engine.cc:2556-2584,
2585-2609, 2610-2638. -/
def initGens (e : Env) (canon : Dist.Config → Outcome Dist.Config) :
    List Dist.Config → Gens → Outcome Gens
  | [], g => .ok g
  | c :: rest, g =>
    match g.map.find c.name with
    | some _ => .error "Distribution config was defined more than once."
    | none => do
      let canonical ← canon c
      let gen ← Dist.initGen e.rnd canonical
      initGens e canon rest
        { map := g.map.set c.name g.gens.length, gens := g.gens ++ [gen] }

/-- `Get…SampleGeneratorIndex`, distbench_engine.cc:2519-2553. -/
def Gens.index (g : Gens) (name : Str) : Int := (g.map.find name).getD (-1)

/-! ### payloads -/

/-- `payload_map_` as an association list with unique keys.  Code: distbench_engine.h:396. -/
abbrev PayloadMap := List PayloadSpec

/-- `payload_map_.find`.  Code: distbench_engine.cc:157-183. -/
def findPayload (m : PayloadMap) (name : Str) : Option PayloadSpec :=
  m.find? (fun p => p.name = name)

/-- `InitializePayloadsMap`, distbench_engine.cc:128-154. -/
def initPayloads (sizes : Gens) : List PayloadSpec → PayloadMap → Outcome PayloadMap
  | [], m => .ok m
  | p :: rest, m =>
    if (findPayload m p.name).isSome then .error "Double definition of payload_descriptions"
    else
      match p.sizeDistributionName with
      | some d =>
        if sizes.index d = -1 then .error "payload references undefined size_distribution"
        else initPayloads sizes rest (m ++ [p])
      | none => initPayloads sizes rest (m ++ [p])

/-- `GetPayloadSize`, distbench_engine.cc:156-171: the `int64` size is returned as an `int`. -/
def getPayloadSize (m : PayloadMap) (name : Str) : Int :=
  match findPayload m name with
  | none => -1
  | some p =>
    match p.size with
    | some s => Dist.toInt32 s
    | none => -1

/-- `GetPayloadSizeIndex`, distbench_engine.cc:173-182. -/
def getPayloadSizeIndex (sizes : Gens) (m : PayloadMap) (name : Str) : Int :=
  match findPayload m name with
  | none => -1
  | some p =>
    match p.sizeDistributionName with
    | none => -1
    | some d => sizes.index d

/-! ### RPC definitions -/

/-- `struct RpcDefinition`, distbench_engine.h:103-129. -/
structure RpcDefinition where
  spec : RpcSpec := {}
  serverSpec : ServiceSpec := {}
  fanout : Fanout.Parsed := { filter := .grid false false false }
  jointSampleGeneratorIndex : Int := -1
  requestPayloadIndex : Int := -1
  responsePayloadIndex : Int := -1
  requestPayloadSize : Int := -1
  responsePayloadSize : Int := -1
  allowedFromThisClient : Bool := false
  multiserverChannelIndex : Int := -1

/-- The first channel with the given name, distbench_engine.cc:373-379. -/
def channelIndex (names : List Str) (name : Str) : Option Nat :=
  names.findIdx? (fun n => n = name)

/-- Channel resolution, distbench_engine.cc:372-383.  The error message at line 381 indexes the
channels by the position of the *RPC* (the loop variable was shadowed): out of range for the
repeated field, undefined, when there are not enough channels. -/
def resolveChannel (channels : List Str) (rpcPosition : Nat) (name : Option Str) : Outcome Int :=
  match name with
  | none => .ok (-1)
  | some n =>
    match channelIndex channels n with
    | some i => .ok i
    | none =>
      if rpcPosition < channels.length then .error "multi_server_channel not found" else .ub

/-- Sizes of one direction, distbench_engine.cc:401-411 and 414-425: the fixed size and the
distribution index. -/
def resolvePayload (sizes : Gens) (payloads : PayloadMap) (name : Option Str) (default_ : Int) :
    Int × Int :=
  let found := match name with
    | none => (-1, -1)
    | some n => (getPayloadSize payloads n, getPayloadSizeIndex sizes payloads n)
  if found.1 = -1 ∧ found.2 = -1 then (default_, found.2) else found

/-- The body of `InitializeRpcDefinitionsMap`, distbench_engine.cc:359-431, for the RPC at
`position`. -/
def rpcDefinition (e : Env) (cfg : Config) (serviceName : Str) (services : NameMap)
    (rpcGens sizeGens : Gens) (payloads : PayloadMap) (position : Nat) (spec : RpcSpec) :
    Outcome RpcDefinition :=
  match services.find spec.server with
  | none => .error "server not found"
  | some si => do
    let serverSpec ← match cfg.services[si.toNat]? with
      | some s => Outcome.ok s
      | none => Outcome.ub
    let channel ← resolveChannel (cfg.channels serverSpec.name) position spec.multiServerChannelName
    if spec.client.any (fun c => (services.find c).isNone) then
      .error "rpc specifies unknown client service"
    else do
      let joint := match spec.distributionConfigName with
        | some d => rpcGens.index d
        | none => -1
      let req := match spec.distributionConfigName with
        | some _ => (-1, -1)
        | none => resolvePayload sizeGens payloads spec.requestPayloadName 16
      let resp := match spec.distributionConfigName with
        | some _ => (-1, -1)
        | none => resolvePayload sizeGens payloads spec.responsePayloadName 32
      let fanout ← Fanout.initializeRpcFanoutFilter e.atof spec.fanoutFilter
      .ok { spec := spec, serverSpec := serverSpec, fanout := fanout,
            jointSampleGeneratorIndex := joint,
            requestPayloadSize := req.1, requestPayloadIndex := req.2,
            responsePayloadSize := resp.1, responsePayloadIndex := resp.2,
            allowedFromThisClient := spec.client.any (fun c => c = serviceName),
            multiserverChannelIndex := channel }

/-- `InitializeRpcDefinitionsMap`, distbench_engine.cc:358-435.  The result lists the definitions
by position; `rpc_map_` maps a name to the last of them. -/
def initRpcDefinitions (e : Env) (cfg : Config) (serviceName : Str) (services : NameMap)
    (rpcGens sizeGens : Gens) (payloads : PayloadMap) :
    List RpcSpec → Nat → Outcome (List RpcDefinition)
  | [], _ => .ok []
  | spec :: rest, position => do
    let d ← rpcDefinition e cfg serviceName services rpcGens sizeGens payloads position spec
    let ds ← initRpcDefinitions e cfg serviceName services rpcGens sizeGens payloads rest (position + 1)
    .ok (d :: ds)

/-- `rpc_map_[name]`: the last definition with that name; a default one if there is none.
Code: distbench_engine.cc:576-642. -/
def findRpcDefinition (defs : List RpcDefinition) (name : Str) : RpcDefinition :=
  (defs.reverse.find? (fun d => d.spec.name = name)).getD {}

/-! ### activities -/

/-- `struct ParsedActivityConfig`, activity.h:24-31; `durationUs` is `sleepfor_duration`. -/
structure ParsedActivity where
  name : Str
  func : Str
  arraySize : Int := 0
  arrayReadsPerIteration : Int := 0
  functionInvocationsPerIteration : Int := 0
  durationUs : Int := 0
  deriving DecidableEq, Repr

/-- `ParseActivityConfig` with the `ValidateConfig` functions it calls, activity.cc:98-139, 171-179,
190-198, 225-251, 339-341.  The `int64` settings are stored in `int` fields. -/
def parseActivityConfig (ac : ActivityConfig) : Outcome ParsedActivity :=
  let func := getNamedSettingString ac.settings "activity_func".toList []
  let get := fun (n : String) (d : Int) => getNamedSettingInt64 ac.settings n.toList d
  if func = "ConsumeCpu".toList then
    if get "array_size" 1000 < 1 then .error "array_size must be a positive integer."
    else .ok { name := ac.name, func := func, arraySize := Dist.toInt32 (get "array_size" 1000) }
  else if func = "PolluteDataCache".toList then
    if get "array_size" 1000 < 1 then .error "array_size must be a positive integer."
    else if get "array_reads_per_iteration" 1000 < 1 then
      .error "array_reads_per_iteration must be a positive integer."
    else .ok { name := ac.name, func := func,
               arraySize := Dist.toInt32 (get "array_size" 2000000),
               arrayReadsPerIteration := Dist.toInt32 (get "array_reads_per_iteration" 1000) }
  else if func = "PolluteInstructionCache".toList then
    .ok { name := ac.name, func := func,
          functionInvocationsPerIteration :=
            Dist.toInt32 (get "function_invocations_per_iteration" 1000) }
  else if func = "SleepFor".toList then
    if get "duration_us" (-1) < 1 then .error "duration_us must be a positive integer."
    else .ok { name := ac.name, func := func, durationUs := get "duration_us" 0 }
  else if func = "SpinFor".toList then
    if get "duration_us" (-1) < 1 then .error "duration_us must be a positive integer."
    else .ok { name := ac.name, func := func, durationUs := get "duration_us" 0 }
  else .error "unknown activity_func"

/-- `stored_activity_config_` and `activity_config_indices_map_`.  Code: distbench_engine.h:398-400. -/
structure Activities where
  map : NameMap := []
  stored : List ParsedActivity := []

/-- `InitializeActivityConfigMap`, distbench_engine.cc:319-338. -/
def initActivities : List ActivityConfig → Activities → Outcome Activities
  | [], t => .ok t
  | ac :: rest, t =>
    match t.map.find ac.name with
    | some _ => .error "Activity config was defined more than once."
    | none => do
      let parsed ← parseActivityConfig ac
      initActivities rest
        { map := t.map.set parsed.name t.stored.length, stored := t.stored ++ [parsed] }

/-! ### replay traces -/

/-- The fields of `defaults.MergeFrom(record)` validation reads, distbench_utils.cc:846-847. -/
def mergedRecord (defaults record : TraceRecord) : TraceRecord :=
  { clientInstance := record.clientInstance.or defaults.clientInstance,
    serverInstance := record.serverInstance.or defaults.serverInstance,
    priorRpcDistances := defaults.priorRpcDistances ++ record.priorRpcDistances }

/-- The loop over the records, distbench_utils.cc:845-857. -/
def validateRecords (clientSize serverSize : Int) (defaults : TraceRecord) :
    List TraceRecord → Outcome Unit
  | [] => .ok ()
  | r :: rest =>
    let m := mergedRecord defaults r
    if m.serverInstance.getD 0 > serverSize then .error "server index too large"
    else if m.clientInstance.getD 0 > clientSize then .error "client index too large"
    else validateRecords clientSize serverSize defaults rest

/-- `ValidateRpcReplayTrace`, distbench_utils.cc:828-859. -/
def validateRpcReplayTrace (t : RpcReplayTrace) (sizes : NameMap) : Outcome Unit :=
  match t.client with
  | none => .error "RpcReplayTrace must specify client"
  | some client =>
    match t.server with
    | none => .error "RpcReplayTrace must specify server"
    | some server =>
      match sizes.find client with
      | none => .error "client service not defined"
      | some clientSize =>
        match sizes.find server with
        | none => .error "server service not defined"
        | some serverSize => validateRecords clientSize serverSize t.defaults t.records

/-- `InitializeRpcTraceMap`, distbench_engine.cc:340-356. -/
def initTraces (sizes : NameMap) : List RpcReplayTrace → Nat → NameMap → Outcome NameMap
  | [], _, m => .ok m
  | t :: rest, i, m =>
    match m.find t.name with
    | some _ => .error "RpcReplayTrace was defined more than once."
    | none => do
      validateRpcReplayTrace t sizes
      initTraces sizes rest (i + 1) (m.set t.name i)

/-! ### actions and action lists -/

/-- `struct ActionTableEntry`, distbench_engine.h:162-175. -/
structure ActionEntry where
  proto : Action
  rpcServiceIndex : Int := -1
  rpcIndex : Int := -1
  rpcReplayTraceIndex : Int := -1
  actionlistIndex : Int := -1
  activityConfigIndex : Int := -1
  delayDistributionIndex : Int := -1
  dependentActionIndices : List Int := []
  requestPayloadOverrideIndex : Int := -1
  responsePayloadOverrideIndex : Int := -1

/-- `struct ActionListTableEntry`, distbench_engine.h:177-181. -/
structure ActionListEntry where
  proto : ActionList
  listActions : List ActionEntry
  hasRpcs : Bool

/-- `action_map[name]`, distbench_engine.cc:454-458: the last action with that name. -/
def findAction (actions : List Action) (name : Str) : Option Action :=
  actions.reverse.find? (fun a => a.name = name)

/-- `actionlist_index_map` and `list_action_indices`: `m[name] = i` for the i-th name,
distbench_engine.cc:462-469 and 475-477. -/
def lastIndices (names : List Str) : NameMap :=
  (List.range names.length).foldl (fun m (i : Nat) => m.set (names[i]?.getD []) (i : Int)) []

/-- What the second pass resolves names against.  Code: distbench_engine.cc:437-642. -/
structure Resolver where
  services : NameMap
  delays : Gens
  sizes : Gens
  payloads : PayloadMap
  rpcIndices : NameMap
  listIndices : NameMap
  activityIndices : NameMap
  traceIndices : NameMap

/-- First pass over one action of a list, distbench_engine.cc:478-502. -/
def firstPass (cfg : Config) (r : Resolver) (name : Str) : Outcome ActionEntry :=
  match findAction cfg.actions name with
  | none => .error "action not found"
  | some a =>
    let requestIndex := getPayloadSizeIndex r.sizes r.payloads (a.requestPayloadOverride.getD [])
    let responseIndex := getPayloadSizeIndex r.sizes r.payloads (a.responsePayloadOverride.getD [])
    if a.requestPayloadOverride.isSome ∧ requestIndex = -1 then
      .error "Unknown size distribution"
    else if a.responsePayloadOverride.isSome ∧ responseIndex = -1 then
      .error "Unknown size distribution"
    else .ok { proto := a, requestPayloadOverrideIndex := requestIndex,
               responsePayloadOverrideIndex := responseIndex }

/-- The delay distribution, distbench_engine.cc:507-518. -/
def resolveDelay (r : Resolver) (entry : ActionEntry) : Outcome ActionEntry :=
  match entry.proto.delayDistributionName with
  | none => .ok { entry with delayDistributionIndex := -1 }
  | some d =>
    if r.delays.index d = -1 then
      .error "Action specified a nonexistent delay distribution"
    else .ok { entry with delayDistributionIndex := r.delays.index d }

/-- What the action refers to, distbench_engine.cc:519-561. -/
def resolveKind (cfg : Config) (r : Resolver) (entry : ActionEntry) : Outcome ActionEntry :=
  match entry.proto.kind with
  | .none => .ok entry
  | .rpc n =>
    match r.rpcIndices.find n with
    | none => .error "rpc not found"
    | some ri =>
      match cfg.rpcs[ri.toNat]? with
      | none => .ub
      | some spec =>
        match r.services.find spec.server with
        | none => .error "target service not found"
        | some si => .ok { entry with rpcIndex := ri, rpcServiceIndex := si }
  | .actionList n =>
    match r.listIndices.find n with
    | none => .error "Action_list not found"
    | some i => .ok { entry with actionlistIndex := i }
  | .activity n =>
    match r.activityIndices.find n with
    | none => .error "Activity config not found"
    | some i => .ok { entry with activityConfigIndex := i }
  | .replay n =>
    match r.traceIndices.find n with
    | none => .error "RpcReplayTrace not found"
    | some i => .ok { entry with rpcReplayTraceIndex := i }

/-- The dependencies of the action at position `j`, distbench_engine.cc:562-573. -/
def resolveDeps (indices : NameMap) (j : Nat) : List Str → Outcome (List Int)
  | [] => .ok []
  | d :: rest =>
    match indices.find d with
    | none => .error "dependency not found"
    | some k =>
      if (j : Int) ≤ k then .error "dependencies must refer to prior actions"
      else do
        let ks ← resolveDeps indices j rest
        .ok (k :: ks)

/-- Second pass over one action, distbench_engine.cc:505-574. -/
def secondPass (cfg : Config) (r : Resolver) (indices : NameMap) (j : Nat) (entry : ActionEntry) :
    Outcome ActionEntry := do
  let e1 ← resolveDelay r entry
  let e2 ← resolveKind cfg r e1
  let deps ← resolveDeps indices j entry.proto.dependencies
  .ok { e2 with dependentActionIndices := deps }

/-- A loop that applies a fallible function to the elements with their positions.
Code: distbench_engine.cc:437-642. -/
def mapIdxOutcome {α β : Type} (f : Nat → α → Outcome β) : Nat → List α → Outcome (List β)
  | _, [] => .ok []
  | i, a :: rest => do
    let b ← f i a
    let bs ← mapIdxOutcome f (i + 1) rest
    .ok (b :: bs)

/-- One action list, distbench_engine.cc:471-575. -/
def buildActionList (cfg : Config) (r : Resolver) (l : ActionList) : Outcome ActionListEntry := do
  let first ← mapIdxOutcome (fun _ n => firstPass cfg r n) 0 l.actionNames
  let second ← mapIdxOutcome (secondPass cfg r (lastIndices l.actionNames)) 0 first
  .ok { proto := l, listActions := second,
        hasRpcs := first.any (fun a => match a.proto.kind with | .rpc _ => true | _ => false) }

/-! ### RPC tables -/

/-- Entries of `client_rpc_table_` and `server_rpc_table_`, distbench_engine.h:147-160.
`pending_requests_per_peer` is not represented (never read). -/
structure RpcEntry where
  serviceIndex : Int
  definition : RpcDefinition
  allowed : Bool
  handlerActionlistIndex : Int

/-- The last loop of `InitializeTables`, distbench_engine.cc:589-639, for one RPC. -/
def rpcEntry (cfg : Config) (serviceName : Str) (services listIndices : NameMap)
    (defs : List RpcDefinition) (rpc : RpcSpec) : Outcome RpcEntry :=
  if rpc.client = [] then .error "Rpc must have a client field"
  else if rpc.server = [] then .error "Rpc must have a nonempty server field"
  else if rpc.client.any (fun c => c ≠ serviceName ∧ (services.find c).isNone) then
    .error "Rpc specifies unknown client service_type"
  else
    match listIndices.find rpc.name with
    | none => .error "no action list for the rpc"
    | some i =>
      let handler := match cfg.actionLists[i.toNat]? with
        | some l => if l.actionNames = [] then -1 else i
        | none => i
      match services.find rpc.server with
      | none => .error "Rpc specifies unknown server service_type"
      | some si =>
        .ok { serviceIndex := si, definition := findRpcDefinition defs rpc.name,
              allowed := rpc.server = serviceName, handlerActionlistIndex := handler }

/-- What `InitializeTables` leaves behind.  Code: distbench_engine.cc:437-642. -/
structure Tables where
  services : NameMap
  rpcGens : Gens
  delayGens : Gens
  sizeGens : Gens
  payloads : PayloadMap
  rpcDefs : List RpcDefinition
  activities : Activities
  traces : NameMap
  actionLists : List ActionListEntry
  rpcTable : List RpcEntry
  dependentServices : List Str

/-- `dependent_services_`, distbench_engine.cc:583-587 and 606-609, as a list of the inserted
names in order. -/
def dependentServices (cfg : Config) (serviceName : Str) : List Str :=
  (cfg.traces.filter (fun t => t.client.getD [] = serviceName)).map (fun t => t.server.getD []) ++
  (cfg.rpcs.filter (fun r => r.client.any (fun c => c = serviceName))).map (·.server)

/-- `InitializeTables`, distbench_engine.cc:437-642. -/
def initTables (e : Env) (cfg : Config) (serviceName : Str) : Outcome Tables := do
  let services := enumerateServiceTypes cfg.services
  let rpcGens ← initGens e (canonicalSize e) cfg.rpcDistributions {}
  let delayGens ← initGens e (fun c => Dist.canonical e.rnd c delayFields) cfg.delayDistributions {}
  let sizeGens ← initGens e (canonicalSize e) cfg.sizeDistributions {}
  let payloads ← initPayloads sizeGens cfg.payloads []
  let defs ← initRpcDefinitions e cfg serviceName services rpcGens sizeGens payloads cfg.rpcs 0
  let activities ← initActivities cfg.activities {}
  let traces ← initTraces (enumerateServiceSizes cfg.services) cfg.traces 0 []
  let listIndices := lastIndices (cfg.actionLists.map (·.name))
  let resolver : Resolver :=
    { services := services, delays := delayGens, sizes := sizeGens, payloads := payloads,
      rpcIndices := enumerateRpcs (cfg.rpcs.map (·.name)), listIndices := listIndices,
      activityIndices := activities.map, traceIndices := traces }
  let lists ← mapIdxOutcome (fun _ l => buildActionList cfg resolver l) 0 cfg.actionLists
  let rpcTable ← mapIdxOutcome
    (fun _ rpc => rpcEntry cfg serviceName services listIndices defs rpc) 0 cfg.rpcs
  .ok { services := services, rpcGens := rpcGens, delayGens := delayGens, sizeGens := sizeGens,
        payloads := payloads, rpcDefs := defs, activities := activities, traces := traces,
        actionLists := lists, rpcTable := rpcTable,
        dependentServices := dependentServices cfg serviceName }

/-- `InitializeConfig`, distbench_engine.cc:645-660. -/
def initializeConfig (e : Env) (cfg : Config) (serviceName : Str) (index : GridIndex) :
    Outcome Tables :=
  if serviceName = [] then .crash
  else do
    let spec ← getServiceSpec serviceName cfg.services
    match getInstanceFromGridIndex spec index with
    | none => .ub
    | some instance_ =>
      match getInstanceName spec instance_ with
      | none => .ub
      | some _ => initTables e cfg serviceName

/-- The loop of `ValidateTrafficConfig`, distbench_engine.cc:2645-2656. -/
def validateServices (e : Env) (cfg : Config) : List ServiceSpec → Outcome Unit
  | [] => .ok ()
  | s :: rest => do
    let _ ← initializeConfig e cfg s.name ⟨1, 1, 1⟩
    validateServices e cfg rest

/-- `ValidateTrafficConfig`, distbench_engine.cc:2645-2656. -/
def validateTrafficConfig (e : Env) (cfg : Config) : Outcome Unit :=
  validateServices e cfg cfg.services

/-! ### canonical descriptions -/

/-- `ValidateIterations`, distbench_utils.cc:743-753. -/
def validateIterations (i : Iterations) : Outcome Unit :=
  if i.openLoopIntervalDistribution ∈
      [[], "constant".toList, "exponential".toList, "sync_burst".toList, "sync_burst_spread".toList]
  then .ok () else .error "Unknown open_loop_interval_distribution"

/-- A loop that stops at the first failure.  Code: distbench_utils.cc:755-814. -/
def forOutcome {α : Type} (f : α → Outcome Unit) : List α → Outcome Unit
  | [] => .ok ()
  | a :: rest => do f a; forOutcome f rest

/-- `absl::StartsWith(text, prefix)`.  Code: distbench_utils.cc:784. -/
def startsWith (text pre : Str) : Bool := pre.isPrefixOf text

/-- `GetCanonicalDistributedSystemDescription`, distbench_utils.cc:755-790.  The replay traces are
checked against the sizes of the services as given, and the predicate check has the arguments of
`StartsWith` in the wrong order. -/
def canonicalDescription (cfg : Config) : Outcome Config := do
  let services ← mapIdxOutcome (fun _ s => getCanonicalServiceSpec s) 0 cfg.services
  let sizes := enumerateServiceSizes cfg.services
  forOutcome (fun t => validateRpcReplayTrace t sizes) cfg.traces
  forOutcome (fun a => match a.iterations with
    | some i => validateIterations i
    | none => .ok ()) cfg.actions
  forOutcome (fun l => forOutcome (fun p =>
    if startsWith "!".toList p.1 then .error "predicates cannot start with '!'" else .ok ())
      l.predicateProbabilities) cfg.actionLists
  .ok { cfg with services := services }

end Distbench.Tables
