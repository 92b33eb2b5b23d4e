import Verif.Model.Placement
import Verif.Model.Tables

/-! How an engine fills the table of its peers, connects to them and sets up multi-server channels:
distbench_engine.cc 702-874. -/

namespace Distbench.Peers
open Services

/-- `struct PeerMetadata`, distbench_engine.h 129-145: name, address, trace id (`none`: not
initialised) and number with the protocol driver.  The logs are modelled elsewhere. -/
structure Peer where
  logName : Str := []
  address : Str := []
  traceId : Option Int := none
  pdId : Int := -1
  deriving DecidableEq, Repr

/-- `peers_`: by service, then by instance.  Code: distbench_engine.h:407. -/
abbrev Table := List (List Peer)

/-- `message ServiceEndpoint`, the fields read here.
Code: distbench.proto (`ServiceEndpoint`); distbench_engine.cc:725-760. -/
structure Endpoint where
  address : Str := []
  attributes : List Placement.Attribute := []
  deriving DecidableEq, Repr

/-- `message MultiServerChannel`, traffic_config.proto 56-66, without its settings (they are passed
on to the protocol driver). -/
structure Channel where
  name : Str := []
  selected : List Int := []
  constraints : Option Placement.ConstraintList := none
  deriving DecidableEq, Repr

/-- What `ConnectToPeers` reads: the services of the test with their channels,
`dependent_services_`, the endpoints it was introduced to (a protobuf map, in its unspecified
iteration order), and which instance this is.  Code: distbench_engine.cc:713-874. -/
structure Input where
  services : List (ServiceSpec × List Channel)
  dependent : List Str
  endpoints : List (Str × Endpoint)
  serviceName : Str
  instance_ : Int

/-- The services of the test.  Code: distbench_engine.cc:713-724. -/
def Input.specs (inp : Input) : List ServiceSpec := inp.services.map Prod.fst

/-- The table after the loop at distbench_engine.cc 717-720.  A negative count would be converted
to a huge `size_t`; `std::vector::resize` then throws and the process ends. -/
def emptyTable (specs : List ServiceSpec) : Outcome Table :=
  if specs.all (fun s => 0 ≤ s.getCount) then
    .ok (specs.map fun s => List.replicate s.getCount.toNat {})
  else .crash

/-- `peers_[service][instance]`; `none` is an index out of range (undefined behaviour).
Code: distbench_engine.cc:725-760. -/
def slot (t : Table) (service instance_ : Int) : Option Peer :=
  if service < 0 ∨ instance_ < 0 then none
  else
    match t[service.toNat]? with
    | none => none
    | some row => row[instance_.toNat]?

/-- Assignment to `peers_[service][instance]`.  Code: distbench_engine.cc:725-760. -/
def setSlot (t : Table) (service instance_ : Int) (p : Peer) : Table :=
  t.set service.toNat (((t[service.toNat]?).getD []).set instance_.toNat p)

/-- `peers_`, `num_targets` and `trace_id_` while the table is being filled.
Code: distbench_engine.cc:713-760. -/
structure Filling where
  peers : Table
  numTargets : Nat := 0
  traceId : Int := -1
  deriving DecidableEq, Repr

/-- The body of the loop over the endpoints, distbench_engine.cc 726-752.  `service_index_map_[...]`
(735) inserts 0 for an unknown service, so that the `CHECK` at 741 always holds; only the value is
represented. -/
def addEndpoint (inp : Input) (ids index : NameMap) (myName : Str) (e : Str × Endpoint) (st : Filling) :
    Outcome Filling :=
  match ids.find e.1 with
  | none => .crash
  | some id =>
    if '/' ∉ e.1 then .crash
    else
      let type := e.1.takeWhile (· ≠ '/')
      let service := (index.find type).getD 0
      match inp.specs[service.toNat]? with
      | none => .ub
      | some spec =>
        match getGridIndexFromName e.1 with
        | .error m => .error m
        | .ub => .ub
        | .crash => .crash
        | .ok g =>
          match getInstanceFromGridIndex spec g with
          | none => .ub
          | some inst =>
            match slot st.peers service inst with
            | none => .ub
            | some old =>
              let traceId := if e.1 = myName then id else st.traceId
              if type ∈ inp.dependent then
                .ok { peers := setSlot st.peers service inst
                        { old with logName := e.1, traceId := some id, address := e.2.address, pdId := st.numTargets }
                      numTargets := st.numTargets + 1, traceId := traceId }
              else
                .ok { st with peers := setSlot st.peers service inst { old with logName := e.1, traceId := some id }
                              traceId := traceId }

/-- The loop over the endpoints, distbench_engine.cc 726-752. -/
def addEndpoints (inp : Input) (ids index : NameMap) (myName : Str) :
    List (Str × Endpoint) → Filling → Outcome Filling
  | [], st => .ok st
  | e :: rest, st => (addEndpoint inp ids index myName e st).bind (addEndpoints inp ids index myName rest)

/-- The peers to connect to, in the order of the loops at distbench_engine.cc 771-773. -/
def targets (t : Table) : List Peer := t.flatten.filter (·.address ≠ [])

/-- `pending_rpcs[i].server_address` after distbench_engine.cc 774-780 (the last assignment wins). -/
def pendingAddress (t : Table) (i : Nat) : Str :=
  (((targets t).reverse.find? (fun p => p.pdId = (i : Int))).map Peer.address).getD []

/-- What the network and the protocol driver do: the error of the connection-setup RPC number `i`,
if any; the order in which those RPCs end; the error of `HandleConnect`, if any; the error of
`SetupMultiServerChannel` for a channel number and peers, if any.  Code: distbench_engine.cc:760-874. -/
structure World where
  setup : Nat → Option String
  order : List Nat
  handle : Nat → Option String
  channel : Nat → List Int → Option String

/-- `if (!x.ok()) status = x;` for one more result, distbench_engine.cc 803-805, 816-818. -/
def assign (status x : Option String) : Option String :=
  match x with
  | some m => some m
  | none => status

/-- `status` after the loops at distbench_engine.cc 794-820; `none` is OK. -/
def connectStatus (w : World) (n : Nat) : Option String :=
  (List.range n).foldl (fun s i => if w.setup i = none then assign s (w.handle i) else s)
    (w.order.foldl (fun s i => assign s (w.setup i)) none)

/-- The calls of `HandleConnect`: the peer number, and the address whose answer is passed on,
distbench_engine.cc 811-820. -/
def connects (w : World) (t : Table) (n : Nat) : List (Nat × Str) :=
  ((List.range n).filter (fun i => w.setup i = none)).map fun i => (i, pendingAddress t i)

/-- The selected instances of a channel, distbench_engine.cc 839-845. -/
def selectedPeers (count : Int) (row : List Peer) : List Int → Outcome (List Int)
  | [] => .ok []
  | i :: rest =>
    if i ≥ count then .error "selected_instances out of range for service"
    else if i < 0 then .ub
    else
      match row[i.toNat]? with
      | none => .ub
      | some p => (selectedPeers count row rest).bind fun ids => .ok (p.pdId :: ids)

/-- Lookup in the endpoint map.  Code: distbench_engine.cc:713-874. -/
def findEndpoint (endpoints : List (Str × Endpoint)) (name : Str) : Option Endpoint :=
  (endpoints.find? (fun e => e.1 = name)).map Prod.snd

/-- The instances that match the constraints of a channel, distbench_engine.cc 847-855, for the
instances from `i` on (`left` of them). -/
def matchingPeers (endpoints : List (Str × Endpoint)) (spec : ServiceSpec) (row : List Peer)
    (cl : Placement.ConstraintList) : (left : Nat) → (i : Nat) → Outcome (List Int)
  | 0, _ => .ok []
  | left + 1, i =>
    match getInstanceName spec i with
    | none => .ub
    | some name =>
      match findEndpoint endpoints name with
      | none => .crash
      | some e =>
        (Placement.checkConstraintList cl e.attributes).bind fun b =>
          if b then
            match row[i]? with
            | none => .ub
            | some p =>
              (matchingPeers endpoints spec row cl left (i + 1)).bind fun ids => .ok (p.pdId :: ids)
          else matchingPeers endpoints spec row cl left (i + 1)

/-- Insertion into an ascending list without repetitions.  Code: distbench_engine.cc:857. -/
def insertId (a : Int) : List Int → List Int
  | [] => [a]
  | b :: rest => if a < b then a :: b :: rest else if a = b then b :: rest else b :: insertId a rest

/-- `std::sort`, `std::unique` and `erase`, distbench_engine.cc 857-859: the values in ascending
order, once each (contract of the standard library). -/
def sortUnique (l : List Int) : List Int := l.foldr insertId []

/-- The peers that the constraints of a channel select, distbench_engine.cc 846-856. -/
def constrainedPeers (inp : Input) (spec : ServiceSpec) (row : List Peer) (c : Channel) : Outcome (List Int) :=
  match c.constraints with
  | none => .ok []
  | some cl => matchingPeers inp.endpoints spec row cl spec.getCount.toNat 0

/-- The peers of one channel, distbench_engine.cc 837-863. -/
def channelPeers (inp : Input) (t : Table) (index : NameMap) (spec : ServiceSpec) (c : Channel) :
    Outcome (List Int) :=
  let row := (t[((index.find spec.name).getD 0).toNat]?).getD []
  (selectedPeers spec.getCount row c.selected).bind fun a =>
    (constrainedPeers inp spec row c).bind fun b =>
      match sortUnique (a ++ b) with
      | [] => .error "No matching constraints, and no selected_instances field"
      | ids => .ok ids

/-- The channels of one service; `done` are the peers of the channels already set up, whose number
is `msc`, distbench_engine.cc 836-870. -/
def setupChannels (inp : Input) (w : World) (t : Table) (index : NameMap) (spec : ServiceSpec) :
    List Channel → List (List Int) → Outcome (List (List Int))
  | [], done => .ok done
  | c :: rest, done =>
    (channelPeers inp t index spec c).bind fun ids =>
      match w.channel done.length ids with
      | some m => .error m
      | none => setupChannels inp w t index spec rest (done ++ [ids])

/-- The channels of all services this one depends on, distbench_engine.cc 832-873. -/
def setupAllChannels (inp : Input) (w : World) (t : Table) (index : NameMap) :
    List (ServiceSpec × List Channel) → List (List Int) → Outcome (List (List Int))
  | [], done => .ok done
  | (spec, channels) :: rest, done =>
    if spec.name ∈ inp.dependent then
      (setupChannels inp w t index spec channels done).bind (setupAllChannels inp w t index rest)
    else setupAllChannels inp w t index rest done

/-- What a successful `ConnectToPeers` leaves behind: the table, `trace_id_`, the number passed to
`SetNumPeers`, the calls of `HandleConnect`, and the peers of each channel by channel number.
Code: distbench_engine.cc:713-874. -/
structure Result where
  peers : Table
  traceId : Int
  numPeers : Nat
  connected : List (Nat × Str)
  channels : List (List Int)
  deriving DecidableEq, Repr

/-- The first half of `ConnectToPeers`, distbench_engine.cc 714-752: the table. -/
def fillTable (inp : Input) : Outcome Filling :=
  match enumerateServiceInstanceIds inp.specs with
  | none => .ub
  | some ids =>
    let index := enumerateServiceTypes inp.specs
    (emptyTable inp.specs).bind fun t =>
      match inp.specs[((index.find inp.serviceName).getD 0).toNat]? with
      | none => .ub
      | some mine =>
        match getInstanceName mine inp.instance_ with
        | none => .ub
        | some myName => addEndpoints inp ids index myName inp.endpoints { peers := t }

/-- `DistBenchEngine::ConfigurePeers` and `ConnectToPeers`, distbench_engine.cc 702-874.
Simplifications: `Preconnect` succeeds (it does for every driver here), the completion queue
returns every RPC with `ok` (as it does for `Finish`). -/
def connectToPeers (inp : Input) (w : World) : Outcome Result :=
  if inp.endpoints = [] then .error "No peers configured."
  else
    (fillTable inp).bind fun st =>
      if (targets st.peers).length ≠ st.numTargets then .crash
      else
        match connectStatus w st.numTargets with
        | some m => .error m
        | none =>
          (setupAllChannels inp w st.peers (enumerateServiceTypes inp.specs) inp.services []).bind fun channels =>
            .ok { peers := st.peers, traceId := st.traceId, numPeers := st.numTargets
                  connected := connects w st.peers st.numTargets, channels := channels }

/-- The peer number passed to `InitiateRpc` for an RPC to an instance, distbench_engine.cc 2187,
2234: `servers[peer_instance].pd_id`. -/
def rpcPeer (t : Table) (service instance_ : Int) : Option Int := (slot t service instance_).map Peer.pdId

/-- The channel number passed to `InitiateRpcToMultiServerChannel`, distbench_engine.cc 373-379 and
2231: the position among the channels of the server's own specification. -/
def rpcChannel (channels : List Channel) (name : Str) : Option Nat :=
  Tables.channelIndex (channels.map Channel.name) name

/-- `logical_to_msc`, distbench_engine.cc 1285-1294: a name that the server does not have adds
nothing. -/
def logicalToMsc (channels : List Channel) (names : List Str) : List Nat :=
  names.filterMap (rpcChannel channels)

end Distbench.Peers
