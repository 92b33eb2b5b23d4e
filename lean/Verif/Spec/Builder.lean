import Verif.Model.Builder
import Verif.Spec.Tables
import Verif.Spec.Fanout
import Verif.Spec.Drivers

/-! Specification of the test builder: what configuration strings mean, sweeps, attributes, and usual
values of parameters. -/

namespace Distbench.Spec
open Builder Services Tables

/-- `values` are `start`, `start + step`, … as far as they do not go beyond `stop`. -/
def SweepValues (start step stop : Int) (values : List Int) : Prop :=
  ∀ (i : Nat) v, values[i]? = some v ↔
    v = start + step * i ∧ ((0 < step ∧ v ≤ stop) ∨ (step < 0 ∧ stop ≤ v))

/-- What a part of a configuration string assigns. -/
inductive PartMeans (files : Str → Option Str) : Str → List (Str × Str) → Prop
  | value {key value} : key ≠ [] → '=' ∉ key → value ≠ [] → '=' ∉ value → value.head? ≠ some '<' →
      PartMeans files (key ++ '=' :: value) [(key, value)]
  | file {key file contents} : key ≠ [] → '=' ∉ key → '=' ∉ file → files file = some contents →
      PartMeans files (key ++ '=' :: '<' :: file) [(key, contents)]
  | protocol {part} : part ∈ ["grpc".toList, "mercury".toList, "homa".toList] →
      PartMeans files part [("protocol_driver".toList, part)]
  | pattern {part} : part ∈ ["clique".toList, "rectangular".toList, "client_server".toList,
        "tripartite".toList, "multi_level_rpc".toList, "variable_response_multi_level_rpc".toList] →
      PartMeans files part [("traffic_pattern".toList, part)]
  | ipv4 : PartMeans files "ipv4".toList
      [("ip_version".toList, "4".toList), ("ip_version_string".toList, "ipv4".toList)]
  | ipv6 : PartMeans files "ipv6".toList
      [("ip_version".toList, "6".toList), ("ip_version_string".toList, "ipv6".toList)]

/-- What all parts assign, in their order. -/
inductive PartsMean (files : Str → Option Str) : List Str → List (Str × Str) → Prop
  | nil : PartsMean files [] []
  | cons {part rest l m} : PartMeans files part l → PartsMean files rest m →
      PartsMean files (part :: rest) (l ++ m)

/-- A configuration with the prefix that is common to all. -/
def fullConfig (f : Flags) (config : Str) : Str :=
  match f.configPrefix with
  | [] => config
  | c :: cs => c :: cs ++ ':' :: config

/-- The value that a key was given last. -/
def givenLast (l : List (Str × Str)) (key : Str) : Option Str :=
  ((l.filter fun x => x.1 = key).getLast?).map (·.2)

/-- The attributes that the tool sets itself. -/
def ownAttributes : List Str :=
  ["test_timeout".toList, "protocol_driver".toList, "protocol_alias".toList, "traffic_pattern".toList,
   "traffic_alias".toList, "test_name".toList, "config_label".toList,
   "protocol_driver_options_proto".toList, "traffic_pattern_options_proto".toList,
   "extra_test_contents".toList]

/-- The same attributes. -/
def SameAttributes (p q : Params) : Prop := ∀ key, p.find key = q.find key

/-- The directory has results for every test, and they are results of that test. -/
def HasResults (f : Flags) (tests : List Test) (r : Results) : Prop :=
  ∀ t ∈ tests, ∃ q, r (f.labelPrefix ++ t.name ++ ".pb.gz".toList) = some q ∧ SameAttributes q t.params

/-! ### what a test does -/

/-- The services with their numbers of instances. -/
def serviceCounts (cfg : Config) : List (Str × Option Int) := cfg.services.map fun s => (s.name, s.count)

/-- The RPCs: name, clients, server, fan-out. -/
def rpcEdges (cfg : Config) : List (Str × List Str × Str × Str) :=
  cfg.rpcs.map fun r => (r.name, r.client, r.server, r.fanoutFilter)

/-- The payloads with their sizes. -/
def payloadSizes (cfg : Config) : List (Str × Option Int) := cfg.payloads.map fun p => (p.name, p.size)

/-- The sizes of the request and the response of each RPC, by the names of its payloads. -/
def rpcSizes (cfg : Config) : List (Str × Option Int × Option Int) :=
  cfg.rpcs.map fun r => (r.name, size r.requestPayloadName, size r.responsePayloadName)
where
  size (name : Option Str) : Option Int :=
    match cfg.payloads.filter fun p => some p.name = name with
    | [p] => p.size
    | _ => none

/-- What is run for a service or an RPC: the actions of the lists. -/
def listsOf (cfg : Config) : List (Str × List Str) := cfg.actionLists.map fun l => (l.name, l.actionNames)

/-- What the actions do, and what they wait for. -/
def actionsOf (cfg : Config) : List (Str × ActionKind × List Str) :=
  cfg.actions.map fun a => (a.name, a.kind, a.dependencies)

/-- The loop of an action. -/
def loopOf (cfg : Config) (action : String) : Option Iterations :=
  match cfg.actions.filter fun a => a.name = action.toList with
  | [a] => a.iterations
  | _ => none

/-- A parameter is a decimal number without leading zeros. -/
def IsNumber (p : Params) (key : String) (n : Nat) : Prop := p.find key.toList = some (toString n).toList

/-- The sequencer can bring a test into canonical form, and check_test finds no fault with it. -/
def Accepts (e : Env) (cfg : Config) : Prop :=
  (∃ c, canonicalDescription cfg = .ok c) ∧ validateTrafficConfig e cfg = .ok ()

/-- The parameters that distbench checks by value: the mode of the intervals is one it knows, the fan-out is one
it can read, and the grid has cells and is not too large for its `int`s. -/
structure SoundParams (e : Env) (p : Params) : Prop where
  mode : ∀ m, p.find "synchronization_mode".toList = some m →
    m ∈ ["constant".toList, "exponential".toList, "sync_burst".toList, "sync_burst_spread".toList]
  filter : ∀ w, p.find "fanout_filter".toList = some w →
    ∃ parsed, Fanout.initializeRpcFanoutFilter e.atof w = .ok parsed
  grid : p.find "traffic_pattern".toList = some "rectangular".toList →
    ∃ x y : Nat, IsNumber p "x_size" x ∧ IsNumber p "y_size" y ∧ 0 < x ∧ 0 < y ∧ 1 + x + x * y < 2 ^ 31

/-- The configurations that distbench reads from the tests of a sequence. -/
def ReadFrom (ts : List Test) (cfgs : List Config) : Prop :=
  ∀ c ∈ cfgs, ∃ t ∈ ts, ∃ name opts, readTest t = .ok (name, opts, c)

/-- What a node sees of a test when it makes protocol drivers: the services, which name no options, and the
options of the test. -/
def driverConfig (cfg : Config) (opts : Drivers.Options) : Drivers.DriverConfig where
  services := cfg.services.map fun s => ⟨s.name, none⟩
  table := [opts]

/-! ### what the tool documents about parameters -/

/-- The parameters of a traffic pattern with their defaults, as `-h` prints them.  The two sizes of the last
pattern are not parameters when an exact size is given. -/
def documentedDefaults (pattern : Str) (exact : Bool) : List (String × String) :=
  if pattern = "clique".toList then
    [("rpc_interval_us", "16000"), ("node_count", "10"), ("synchronization_mode", "sync_burst"),
     ("request_size", "1024"), ("response_size", "1024")]
  else if pattern = "rectangular".toList then
    [("rpc_interval_us", "100000"), ("x_size", "5"), ("y_size", "3"), ("synchronization_mode", "sync_burst"),
     ("request_size", "1024"), ("response_size", "1024"), ("fanout_filter", "ring_x"), ("tracing_interval", "0")]
  else if pattern = "client_server".toList then
    [("parallel_queries", "100"), ("client_count", "1"), ("server_count", "1")]
  else if pattern = "tripartite".toList then
    [("client_count", "1"), ("index_count", "1"), ("data_count", "10")]
  else if pattern = "multi_level_rpc".toList then
    [("qps", "10000"), ("root_count", "4"), ("leaf_count", "20")]
  else
    [("qps", "10000"), ("root_count", "4"), ("leaf_count", "20")] ++
      if exact then [] else [("lower_size", "1024"), ("upper_size", "64000")]

/-- The parameters of a protocol driver with their defaults, as `-h` prints them. -/
def driverDefaults (driver : Str) : List (String × String) :=
  if driver = "grpc".toList then
    [("client_type", "polling"), ("server_type", "inline"), ("threadpool_type", ""), ("threadpool_size", "0"),
     ("transport", "")]
  else if driver = "mercury".toList then
    [("threadpool_type", ""), ("threadpool_size", "0"), ("transport", "ofi+tcp")]
  else
    [("threadpool_type", ""), ("threadpool_size", "0"), ("client_threads", "1"), ("server_threads", "1"),
     ("nocopy", "1"), ("ping_pong", "0")]

/-- The smallest values of the parameters of a traffic pattern. -/
def smallest (pattern : Str) : List (String × Nat) :=
  if pattern = "clique".toList then [("rpc_interval_us", 100), ("node_count", 2)]
  else if pattern = "rectangular".toList then [("rpc_interval_us", 100)]
  else if pattern = "client_server".toList then [("parallel_queries", 1), ("client_count", 1), ("server_count", 1)]
  else if pattern = "tripartite".toList then [("client_count", 1), ("index_count", 1), ("data_count", 1)]
  else if pattern = "multi_level_rpc".toList then [("qps", 1), ("root_count", 1), ("leaf_count", 1)]
  else [("qps", 1), ("root_count", 1), ("leaf_count", 1), ("lower_size", 1), ("upper_size", 1), ("exact_size", 1)]

end Distbench.Spec
