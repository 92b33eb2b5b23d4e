import Verif.Model.Basic

/-! Protocol drivers: which driver a service gets, how the composite drivers are allocated, and
what the composite drivers do with RPCs. -/

namespace Distbench.Drivers

/-- `NamedSetting` (traffic_config.proto 236-240), with the two fields that the allocation reads:
`string_value()` is `[]` when unset.  The integer value plays no part and is left out. -/
structure Setting where
  name : Str
  value : Str
  deriving DecidableEq, Repr

/-- `ProtocolDriverOptions` (traffic_config.proto 242-249).  `none` is an unset optional field. -/
structure Options where
  name : Option Str := none
  protocol : Option Str := none
  netdev : Option Str := none
  serverSettings : List Setting := []
  clientSettings : List Setting := []
  ipVersion : Int := 0
  deriving DecidableEq, Repr

/-- `opts.protocol_name()`: the empty string when unset.  Code: protocol_driver_allocator.cc:45-86. -/
def Options.protocolName (o : Options) : Str := o.protocol.getD []

/-- A protocol driver as allocated: the real drivers keep the options they were initialised with.
Code: protocol_driver_allocator.cc:45-86. -/
inductive Driver where
  | leaf (opts : Options)
  | doubleBarrel (instance1 instance2 : Driver)
  | counter (instance1 : Driver)
  deriving DecidableEq, Repr

/-- What the allocation depends on besides its arguments: the drivers compiled in besides grpc
(protocol_driver_allocator.cc 61-68, WITH_HOMA and WITH_MERCURY), the alias resolver
(`alias_resolver_`, 37-43; `none` when not set), and whether the real driver at a place of the
tree initialises with given options (sockets, threads: outside the model, any outcome). -/
structure Env where
  extra : List Str
  resolver : Option (Str → Outcome Options)
  init : List Nat → Options → Outcome Unit

/-- protocol_driver_allocator.cc 48-50. -/
def tooDeep : String := "Tree cannot be deeper than max depth of: 4."

/-- protocol_driver_allocator.cc 70-71. -/
def noResolver : String := "Protocol driver alias resolver function is not set."

/-- The loop over the server settings of protocol_driver_double_barrel.cc 43-48 and
composable_rpc_counter.cc 43-48: the position of the setting kept in `next_protocol_driver_it`
and the protocol name. -/
def scanSettings (key : Str) : List Setting → Nat → Option Nat → Option Str → Option Nat × Option Str
  | [], _, kept, protocol => (kept, protocol)
  | s :: rest, i, kept, protocol =>
    if s.name = key then scanSettings key rest (i + 1) (some i) (some s.value)
    else scanSettings key rest (i + 1) kept protocol

/-- The options given to the driver under a composite driver:
protocol_driver_double_barrel.cc 39-50 and composable_rpc_counter.cc 39-50. -/
def innerOptions (key : Str) (o : Options) : Options :=
  match scanSettings key o.serverSettings 0 none o.protocol with
  | (some i, p) => { o with protocol := p, serverSettings := o.serverSettings.eraseIdx i }
  | (none, p) => { o with protocol := p }

/-- `AllocateProtocolDriver(opts, port, tree_depth)`, protocol_driver_allocator.cc 45-84, together
with `Initialize` of the two composite drivers (protocol_driver_double_barrel.cc 37-65,
composable_rpc_counter.cc 37-59).  The fuel counts nested calls; `none` says that the call has not
returned within that many, so that termination is something to prove.  `place` says which instance
of which composite driver is being made.  Simplification: ports are not represented. -/
def allocate (env : Env) : Nat → Int → List Nat → Options → Option (Outcome Driver)
  | 0, _, _, _ => none
  | fuel + 1, depth, place, o =>
    if depth = 4 then some (.error tooDeep)
    else if o.protocolName = "grpc".toList ∨ o.protocolName = "grpc_async_callback".toList ∨
        (o.protocolName ∈ env.extra ∧ o.protocolName ≠ "double_barrel".toList ∧
          o.protocolName ≠ "composable_rpc_counter".toList) then
      some ((env.init place o).bind fun _ => .ok (.leaf o))
    else if o.protocolName = "double_barrel".toList then
      match allocate env fuel (depth + 1) (place ++ [1]) (innerOptions "next_protocol_driver".toList o) with
      | none => none
      | some (.ok d1) =>
        match allocate env fuel (depth + 1) (place ++ [2]) (innerOptions "next_protocol_driver".toList o) with
        | none => none
        | some r2 => some (r2.bind fun d2 => .ok (.doubleBarrel d1 d2))
      | some r1 => some r1
    else if o.protocolName = "composable_rpc_counter".toList then
      match allocate env fuel (depth + 1) (place ++ [1]) (innerOptions "driver_under_test".toList o) with
      | none => none
      | some r => some (r.bind fun d => .ok (.counter d))
    else
      match env.resolver with
      | none => some (.error noResolver)
      | some resolve =>
        match resolve o.protocolName with
        | .ok o' => allocate env fuel (depth + 1) place o'
        | .error m => some (.error m)
        | .ub => some .ub
        | .crash => some .crash

/-- The part of `ServiceSpec` (traffic_config.proto 40-51) that selects driver options. -/
structure ServiceOptions where
  name : Str
  optionsName : Option Str
  deriving DecidableEq, Repr

/-- The part of the traffic configuration the node manager consults: the services and the
`protocol_driver_options` table.  Code: distbench_node_manager.cc:34-45, 123-150. -/
structure DriverConfig where
  services : List ServiceOptions
  table : List Options
  deriving DecidableEq, Repr

/-- distbench_node_manager.cc 44-45. -/
def unresolved : String := "Could not resolve protocol driver alias"

/-- `NodeManager::ResolveProtocolDriverAlias`, distbench_node_manager.cc 34-46.  Simplification:
the error message leaves out the name. -/
def resolveAlias (table : List Options) (name : Str) : Outcome Options :=
  match table with
  | [] => .error unresolved
  | o :: rest =>
    if o.name.getD [] = name ∨ (name = [] ∧ o.name.getD [] = "default_protocol_driver_options".toList) then
      .ok o
    else resolveAlias rest name

/-- distbench_node_manager.cc 135. -/
def emptyName : String := "An empty name cannot be specified"

/-- The loop over the services, distbench_node_manager.cc 129-137. -/
def optionsName (services : List ServiceOptions) (serviceType : Str) (name : Str) : Outcome Str :=
  match services with
  | [] => .ok name
  | s :: rest =>
    if s.name ≠ serviceType then optionsName rest serviceType name
    else
      match s.optionsName with
      | none => optionsName rest serviceType name
      | some n => if n = [] then .error emptyName else optionsName rest serviceType n

/-- `NodeManager::GetProtocolDriverOptionsFor`, distbench_node_manager.cc 123-150;
`protocol` is the test's default protocol and `netdev` the node's data-plane device (74-75). -/
def optionsFor (config : DriverConfig) (serviceType protocol netdev : Str) : Outcome Options :=
  (optionsName config.services serviceType []).bind fun name =>
    let found : Options := match resolveAlias config.table name with
      | .ok o => o
      | _ => {}
    let named : Options := if name = [] then { found with name := some "generated_default".toList } else found
    let withProtocol : Options := if named.protocol = none then { named with protocol := some protocol } else named
    let withNetdev : Options := if withProtocol.netdev = none then { withProtocol with netdev := some netdev } else withProtocol
    .ok withNetdev

/-- The driver of a service: `AllocService`, distbench_node_manager.cc 152-160, with the resolver
installed by the node manager's constructor (48-53).  The fuel is that of `allocate`. -/
def serviceDriver (config : DriverConfig) (extra : List Str) (init : List Nat → Options → Outcome Unit)
    (serviceType protocol netdev : Str) (fuel : Nat) : Option (Outcome Driver) :=
  match optionsFor config serviceType protocol netdev with
  | .ok o => allocate ⟨extra, some (resolveAlias config.table), init⟩ fuel 0 [] o
  | .error m => some (.error m)
  | .ub => some .ub
  | .crash => some .crash

/-! ### The double-barrelled driver at run time -/

/-- State of `ProtocolDriverDoubleBarrel`: `use_instance_1_` (protocol_driver_double_barrel.h 56,
an atomic `int`), and the calls of `InitiateRpc` made to each instance (the peer of each), most
recent last. -/
structure Barrel where
  useInstance1 : Int := 1
  first : List Int := []
  second : List Int := []
  deriving DecidableEq, Repr

/-- Wrapping addition on an atomic `int` (atomics wrap around, they have no overflow).
Code: protocol_driver_double_barrel.cc:98-128; composable_rpc_counter.cc:90-104. -/
def wrap32 (n : Int) : Int := (n + 2 ^ 31) % 2 ^ 32 - 2 ^ 31

/-- `ProtocolDriverDoubleBarrel::InitiateRpc`, protocol_driver_double_barrel.cc 119-128.  The
choice is made by one atomic operation, so concurrent calls are taken in the order of those
operations. -/
def Barrel.initiate (s : Barrel) (peer : Int) : Barrel :=
  let old := s.useInstance1
  let s' := { s with useInstance1 := wrap32 (old + 1) }
  if old % 2 = 1 then { s' with first := s.first ++ [peer] } else { s' with second := s.second ++ [peer] }

/-- A run: the RPCs to the given peers, in the order of the atomic operations.
Code: protocol_driver_double_barrel.cc:119-128. -/
def Barrel.run (s : Barrel) : List Int → Barrel
  | [] => s
  | p :: rest => (s.initiate p).run rest

/-! ### The counting driver at run time -/

/-- State of `ComposableRpcCounter`: the two counters (composable_rpc_counter.h 52-53), the calls
of `InitiateRpc` that entered the driver under test, those that have returned, the RPCs whose
completion callback has run, and the RPCs the server side received and passed to the handler. -/
structure Counter where
  client : Nat := 0
  server : Nat := 0
  entered : List Nat := []
  returned : List Nat := []
  completed : List Nat := []
  received : List Nat := []
  handled : List Nat := []
  deriving DecidableEq, Repr

/-- Steps of the counting driver.  Each RPC has a number.
Code: composable_rpc_counter.cc:59-67, 98-104. -/
inductive CounterOp where
  | enter (rpc : Nat)
  | complete (rpc : Nat)
  | leave (rpc : Nat)
  | receive (rpc : Nat)
  | handle (rpc : Nat)
  deriving DecidableEq, Repr

/-- One step.  `enter`: `InitiateRpc` calls the driver under test (composable_rpc_counter.cc:
98-101).  `complete`: the driver under test runs the completion callback, which it may do before
its `InitiateRpc` returns.  `leave`: that call returns and the counter is incremented (102-103).
`receive`, `handle`: the server-side wrapper, which counts and then calls the handler (61-68).
The counters are `int64_t`; overflowing them would take 2^63 RPCs and is not represented. -/
def Counter.step (s : Counter) : CounterOp → Option Counter
  | .enter r => if r ∈ s.entered then none else some { s with entered := s.entered ++ [r] }
  | .complete r =>
    if r ∈ s.entered ∧ r ∉ s.completed then some { s with completed := s.completed ++ [r] } else none
  | .leave r =>
    if r ∈ s.entered ∧ r ∉ s.returned then
      some { s with returned := s.returned ++ [r], client := s.client + 1 }
    else none
  | .receive r =>
    if r ∈ s.received then none else some { s with received := s.received ++ [r], server := s.server + 1 }
  | .handle r =>
    if r ∈ s.received ∧ r ∉ s.handled then some { s with handled := s.handled ++ [r] } else none

/-- A run of steps.  Code: composable_rpc_counter.cc:59-67, 98-104. -/
def Counter.run (s : Counter) : List CounterOp → Option Counter
  | [] => some s
  | op :: rest => (s.step op).bind fun s' => s'.run rest

/-- `TransportStat` (protocol_driver.h 62-65). -/
abbrev Stat := Str × Int

/-- `ComposableRpcCounter::GetTransportStats`, composable_rpc_counter.cc 90-96. -/
def counterStats (s : Counter) (inner : List Stat) : List Stat :=
  inner ++ [("client_rpc_cnt".toList, (s.client : Int)), ("server_rpc_cnt".toList, (s.server : Int))]

/-- `ProtocolDriverDoubleBarrel::GetTransportStats`, protocol_driver_double_barrel.cc 98-117. -/
def barrelStats (inner1 inner2 : List Stat) : List Stat :=
  inner1.map (fun s => ("instance_1/".toList ++ s.1, s.2)) ++
    inner2.map (fun s => ("instance_2/".toList ++ s.1, s.2))

end Distbench.Drivers
