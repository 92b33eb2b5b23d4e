import Verif.Model.Placement
import Verif.Model.Handler

/-! Model of the test sequencer (distbench_test_sequencer.cc) and of the part of the node manager
that answers it (distbench_node_manager.cc): registration, the four rounds of RPCs that make up a
test, test sequences, and concurrent `RunTestSequence` calls. -/

namespace Distbench.Sequencer
open Placement Services
open Handler (Status)

/-! ### maps -/

/-- `std::map<std::string, T>` or a protobuf map, as an association list.  Simplification: the order
of the keys is not represented.
Code: distbench_test_sequencer.h; distbench_test_sequencer.cc:41-95, 415-522. -/
abbrev Map (α : Type) := List (Str × α)

/-- `m[key] = value`.  Code: distbench_test_sequencer.cc:41-95, 415-475. -/
def Map.set {α : Type} (m : Map α) (key : Str) (value : α) : Map α :=
  match m with
  | [] => [(key, value)]
  | (k, v) :: rest => if k = key then (k, value) :: rest else (k, v) :: Map.set rest key value

/-- `m.find(key)`.  Code: distbench_test_sequencer.cc:41-95, 415-522. -/
def Map.find {α : Type} (m : Map α) (key : Str) : Option α :=
  match m with
  | [] => none
  | (k, v) :: rest => if k = key then some v else Map.find rest key

/-- `MergeFrom` of a protobuf map: entries of the other map replace those of the same key.
Code: distbench_test_sequencer.cc:415-475, 524-634. -/
def Map.merge {α : Type} (m other : Map α) : Map α :=
  other.foldl (fun m e => m.set e.1 e.2) m

/-! ### registration -/

/-- `message NodeRegistration`, distbench.proto:198-205.  Simplification: absent strings read as
empty, except `control_ip` whose presence shows in the text form. -/
structure Registration where
  hostname : Str := []
  controlIp : Option Str := none
  controlPort : Int := 0
  serviceAddress : Str := []
  attributes : List Attribute := []
  preassigned : Int := -1
  deriving DecidableEq, Repr

/-- `struct RegisteredNode`, distbench_test_sequencer.h:27-32.  The stub is represented by the
registration it was made from (its address); it is set whenever the node is not pending. -/
structure Slot where
  nodeAlias : Str := []
  pending : Bool := true
  registration : Registration := {}
  deriving DecidableEq, Repr

/-- `registered_nodes_`, `node_registration_id_map_` and `node_alias_id_map_`,
distbench_test_sequencer.h:105-107.  Simplification: the second is keyed by the registration itself
rather than by its text (`ProtoToString`, which determines the message). -/
structure Registry where
  nodes : List Slot := []
  byRegistration : List (Registration × Nat) := []
  byAlias : Map Nat := []
  deriving DecidableEq, Repr

/-- `node_registration_id_map_.find(registration)`.  Code: distbench_test_sequencer.cc:41-95. -/
def Registry.lookup (s : Registry) (r : Registration) : Option Nat :=
  (s.byRegistration.find? (fun e => e.1 == r)).map (·.2)

/-- `absl::StrCat("node", node_id)`, distbench_test_sequencer.cc:70. -/
def aliasOf (id : Nat) : Str := "node".toList ++ digits id

/-- `registered_nodes_.resize(n)` when `n` exceeds the size, distbench_test_sequencer.cc:62-64. -/
def grow (nodes : List Slot) (n : Nat) : List Slot :=
  nodes ++ List.replicate (n - nodes.length) ({} : Slot)

/-- The first half of `TestSequencer::RegisterNode`, distbench_test_sequencer.cc:44-48. -/
def malformed (r : Registration) : Bool :=
  r.hostname = [] || r.controlPort ≤ 0 || r.controlPort > 65535

/-- `TestSequencer::RegisterNode`, distbench_test_sequencer.cc:41-95.  The answer is the id and alias
of the `NodeConfig`, or `none` for `INVALID_ARGUMENT`; `node_id + 1` on line 63 overflows for the
largest `int`.  Simplifications: `registered_nodes_.size()` fits an `int`, memory suffices for the
resize, and `NewStub` does not return null. -/
def register (s : Registry) (r : Registration) : Outcome (Registry × Option (Nat × Str)) :=
  if malformed r then .ok (s, none)
  else
    match s.lookup r with
    | some id =>
      let name := (s.nodes[id]?.getD {}).nodeAlias
      let slot := { nodeAlias := name, pending := (s.nodes[id]?.getD {}).pending, registration := r }
      .ok ({ s with nodes := s.nodes.set id slot }, some (id, name))
    | none =>
      let id := if r.preassigned ≥ 0 then r.preassigned.toNat else s.nodes.length
      if id ≥ s.nodes.length ∧ (id : Int) = 2 ^ 31 - 1 then .ub
      else
        let nodes := if id ≥ s.nodes.length then grow s.nodes (id + 1) else s.nodes
        if !(nodes[id]?.getD {}).pending then .ok ({ s with nodes := nodes }, none)
        else
          let name := aliasOf id
          .ok ({ nodes := nodes.set id { nodeAlias := name, pending := false, registration := r }
                 byRegistration := s.byRegistration ++ [(r, id)]
                 byAlias := s.byAlias.set name id },
               some (id, name))

/-- A history of registrations, in the order in which they take `mutex_`
(distbench_test_sequencer.cc:51), with the answers given. -/
inductive History : Registry → List (Registration × Option (Nat × Str)) → Prop
  | start : History {} []
  | step {s s' h r a} : History s h → register s r = .ok (s', a) → History s' (h ++ [(r, a)])

/-! ### what a node answers -/

/-- `message ServiceEndpoint`, distbench.proto:220-224. -/
structure Endpoint where
  address : Str
  hostname : Str
  attributes : List Attribute
  deriving DecidableEq, Repr

/-- `message ServiceEndpointMap`, distbench.proto:226-228. -/
abbrev EndpointMap := Map Endpoint

/-- What `ConfigureNode` uses of the node: `Hostname()`, the registered attributes, and the outcome
of `AllocService` and `SocketAddressForDevice` for each service (an address or a failure).
Code: distbench_node_manager.cc:55-119. -/
structure NodeInfo where
  hostname : Str
  attributes : List Attribute
  start : Str → Except Str Str

/-- `service_instance[1]` where `service_instance = absl::StrSplit(service_name, '/')`.
Code: distbench_node_manager.cc:55-119. -/
def secondPart (name : Str) : Str :=
  ((name.dropWhile (· ≠ '/')).drop 1).takeWhile (· ≠ '/')

/-- The attributes that give the place in the grid, distbench_node_manager.cc:91-110. -/
def indexAttributes (name : Str) (g : GridIndex) : List Attribute :=
  let dimensions := name.count '/'
  (if dimensions = 1 then [⟨"index".toList, secondPart name⟩] else []) ++
  (if dimensions > 1 then
    [⟨"x_index".toList, showInt g.x⟩, ⟨"y_index".toList, showInt g.y⟩] else []) ++
  (if dimensions > 2 then [⟨"z_index".toList, showInt g.z⟩] else [])

/-- The loop of `NodeManager::ConfigureNode`, distbench_node_manager.cc:66-112.
`CHECK_GE(service_instance.size(), 2)` fails for a name without a slash. -/
def configureServices (node : NodeInfo) : List Str → EndpointMap → Outcome (Except Str EndpointMap)
  | [], m => .ok (.ok m)
  | name :: rest, m =>
    if '/' ∉ name then .crash
    else
      (getGridIndexFromName name).bind fun g =>
      match node.start name with
      | .error e => .ok (.error e)
      | .ok address =>
        configureServices node rest
          (m.set name { address := address, hostname := node.hostname,
                        attributes := node.attributes ++ indexAttributes name g })

/-- `NodeManager::ConfigureNode`, distbench_node_manager.cc:55-119. -/
def configureNode (node : NodeInfo) (maxThreads : Int) (services : List Str) :
    Outcome (Except Str EndpointMap) :=
  if maxThreads ≤ 0 then .ok (.error "overload_limits.max_threads must be positive.".toList)
  else configureServices node services []

/-! ### one test -/

/-- `Annotate`, distbench_utils.cc:139-142. -/
def annotate (e : Status) (context : Str) : Status := { e with message := context ++ e.message }

/-- What one round of RPCs leaves in `status`: the loops at distbench_test_sequencer.cc:452-469,
511-526, 570-585 and 615-632.  The list holds the answers in the order in which they complete. -/
def roundStatus {α : Type} (rpc : Str) (answers : List (Str × Except Status α)) : Option Status :=
  answers.foldl (fun status a =>
    match a.2 with
    | .error e => some (annotate e (rpc ++ " to ".toList ++ a.1 ++ " failed: ".toList))
    | .ok _ => status) none

/-- `ret.MergeFrom(finished_rpc->response)` for every answer, distbench_test_sequencer.cc:467, 630.  The
response of a failed RPC is empty. -/
def mergeAnswers {α : Type} (answers : List (Str × Except Status (Map α))) : Map α :=
  answers.foldl (fun m a =>
    match a.2 with
    | .error _ => m
    | .ok r => m.merge r) []

/-- `message GetTrafficResultResponse`, distbench.proto:183-186; logs and usage are opaque. -/
structure TrafficResult where
  logs : Map Str := []
  usages : Map Str := []
  deriving DecidableEq, Repr

/-- `message TestResult`, distbench.proto:176-181 and the fields of its parts set by the sequencer;
`traffic_config` is represented by its attributes. -/
structure TestResult where
  placement : EndpointMap := []
  logs : Map Str := []
  usages : Map Str := []
  summary : List Str := []
  deriving DecidableEq, Repr

/-- What the sequencer reads of a `DistributedSystemDescription`.
Code: traffic_config.proto (`DistributedSystemDescription`); distbench_test_sequencer.cc:225-243, 373-413. -/
structure Test where
  services : List ServiceSpec
  bundles : List (Str × List Str) := []
  serviceConstraints : List (Str × ConstraintList) := []
  attributes : Map Str := []

/-- An RPC sent to a node, with the contents that matter.  Code: distbench_test_sequencer.cc:415-634. -/
inductive Msg where
  | configure (services : List Str)
  | introduce (peers : EndpointMap)
  | run (startNs : Int) (timeoutS : Int)
  | collect
  deriving DecidableEq, Repr

/-- Everything outside the sequencer that a test depends on: how each node (by id) answers each RPC,
the order in which the answers of each round complete (`order k` lists the node names), the clock,
and the registry as it is when each round takes `mutex_` (registrations may come in between).
Code: distbench_test_sequencer.cc:415-634. -/
structure World where
  configure : Nat → List Str → Except Status EndpointMap
  introduce : Nat → EndpointMap → Except Status Unit
  run : Nat → Int → Int → Except Status Unit
  collect : Nat → Except Status TrafficResult
  order : Nat → List (Str × Nat) → List (Str × Nat)
  now : Int
  registry : Nat → Registry
  glob : Str → Str → Bool

/-- The lookup made for every node of the placement before an RPC is sent to it,
distbench_test_sequencer.cc:443-446, 503-504, 559-561 and 603-605; a missing alias is a `CHECK`
failure. -/
def addressees (s : Registry) : List Str → Outcome (List (Str × Nat))
  | [] => .ok []
  | n :: rest =>
    match s.byAlias.find n with
    | none => .crash
    | some id => (addressees s rest).bind fun l => .ok ((n, id) :: l)

/-- `node_attributes[alias] = attributes` for a `std::map`, kept in the order of its keys.
Code: distbench_test_sequencer.cc:225-243. -/
def insertNode (l : List (Str × List Attribute)) (n : Str × List Attribute) : List (Str × List Attribute) :=
  match l with
  | [] => [n]
  | x :: rest => if x.1 = n.1 then n :: rest else if n.1 < x.1 then n :: x :: rest else x :: insertNode rest n

/-- The nodes of a registry that are not pending, in the order of their aliases: the map built at
distbench_test_sequencer.cc:228-233. -/
def activeNodes (s : Registry) : List (Str × List Attribute) :=
  s.nodes.foldl (fun l n => if n.pending then l else insertNode l (n.nodeAlias, n.registration.attributes)) []

/-- `GetNamedAttributeInt64`, distbench_utils.cc:354-371. -/
def namedAttributeInt64 (attributes : Map Str) (name : Str) (default_ : Int) : Except Str Int :=
  match attributes.find name with
  | none => .ok default_
  | some text =>
    match simpleAtoi64 text with
    | some v => .ok v
    | none =>
      .error ("Cannot convert test attribute ".toList ++ name ++ " value (".toList ++ text ++
        ") to int.".toList)

/-- Conversion of `int64_t` to the `int` parameter of `SetGrpcClientContextDeadline`,
distbench_utils.cc:162-163 (modulo 2^32). -/
def toInt32 (n : Int) : Int := (n + 2 ^ 31) % 2 ^ 32 - 2 ^ 31

/-- A test so far: the RPCs sent, each with the alias and id of the node, and the result.
Code: distbench_test_sequencer.cc:373-413. -/
structure Ran where
  sent : List (Str × Nat × Msg) := []
  result : Except Str TestResult

/-- Services of a node in a placement.  Code: distbench_test_sequencer.cc:415-475. -/
def servicesOf (m : NodeServiceMap) (node : Str) : List Str :=
  match m.find? (fun e => e.1 == node) with
  | some e => e.2
  | none => []

/-- `TestSequencer::RunTraffic`, distbench_test_sequencer.cc:533-634, as the end of `DoRunTest`
(:394-413).  `placement` is the merged endpoint map, `sent` the RPCs sent before. -/
def runTraffic (w : World) (m : NodeServiceMap) (timeout : Int) (placement : EndpointMap)
    (sent : List (Str × Nat × Msg)) : Outcome Ran :=
  (addressees (w.registry 3) (m.map (·.1))).bind fun to =>
  let sent := sent ++ to.map (fun n => (n.1, n.2, Msg.run w.now (toInt32 timeout)))
  match roundStatus "AsyncRunTraffic".toList
      ((w.order 3 to).map fun n => (n.1, w.run n.2 w.now (toInt32 timeout))) with
  | some e => .ok { sent := sent, result := .error e.message }
  | none =>
    let sent := sent ++ to.map (fun n => (n.1, n.2, Msg.collect))
    let answers := (w.order 4 to).map fun n => (n.1, w.collect n.2)
    match roundStatus "AsyncGetTrafficResult".toList answers with
    | some e => .ok { sent := sent, result := .error e.message }
    | none =>
      .ok { sent := sent
            result := .ok
              { placement := placement
                logs := mergeAnswers (answers.map fun a => (a.1, a.2.map (·.logs)))
                usages := mergeAnswers (answers.map fun a => (a.1, a.2.map (·.usages))) } }

/-- What `PlaceServices` hands to `ConstraintSolver`, distbench_test_sequencer.cc:225-234. -/
def problemOf (s : Registry) (t : Test) (instances : List Str) : Problem where
  services := instances
  nodes := activeNodes s
  bundles := t.bundles
  serviceConstraints := t.serviceConstraints

/-- `TestSequencer::DoRunTest`, distbench_test_sequencer.cc:373-413, with `ConfigureNodes` (:415-479)
and `IntroducePeers` (:481-531). -/
def doRunTest (w : World) (t : Test) : Outcome Ran :=
  if t.services = [] then .ok { result := .error "No services defined.".toList }
  else
    match problemServices t.services with
    | none => .ub
    | some instances =>
      match placeServices w.glob (problemOf (w.registry 0) t instances) with
      | .ub => .ub
      | .crash => .crash
      | .error e => .ok { result := .error e.toList }
      | .ok m =>
        (addressees (w.registry 1) (m.map (·.1))).bind fun to =>
        let sent := to.map fun n => (n.1, n.2, Msg.configure (servicesOf m n.1))
        let answers := (w.order 1 to).map fun n => (n.1, w.configure n.2 (servicesOf m n.1))
        match roundStatus "AsyncConfigureNode".toList answers with
        | some e => .ok { sent := sent, result := .error e.message }
        | none =>
          let placement := mergeAnswers answers
          (addressees (w.registry 2) (m.map (·.1))).bind fun to =>
          let sent := sent ++ to.map fun n => (n.1, n.2, Msg.introduce placement)
          match roundStatus "AsyncIntroducePeers".toList
              ((w.order 2 to).map fun n => (n.1, w.introduce n.2 placement)) with
          | some e => .ok { sent := sent, result := .error e.message }
          | none =>
            match namedAttributeInt64 t.attributes "test_timeout".toList 3600 with
            | .error e => .ok { sent := sent, result := .error e }
            | .ok timeout => runTraffic w m timeout placement sent

/-! ### a sequence of tests -/

/-- The settings of a sequence and the library functions used on its results: `TestsSetting`
(distbench.proto:23-26), `SummarizeTestResult` and `ByteSizeLong`. -/
structure SequenceSettings where
  keepInstanceLog : Bool
  shutdownAfterTests : Bool
  summarize : TestResult → List Str
  byteSize : List TestResult → Nat

/-- What is added to the response for a test that succeeded, distbench_test_sequencer.cc:197-205. -/
def reported (c : SequenceSettings) (r : TestResult) : TestResult :=
  { r with
    summary := r.summary ++ c.summarize r
    logs := if c.keepInstanceLog then r.logs else [] }

/-- `kMaxReponseSize`, distbench_test_sequencer.cc:213-214. -/
def maxResponseSize : Nat := 2 ^ 31 - 1 - 512 * 1024

/-- How a sequence ends: the status message (`none` is OK), the test results in the response, and
whether shutdown was requested.  Code: distbench_test_sequencer.cc:180-223. -/
structure Ended where
  error : Option Str
  results : List TestResult
  shutdown : Bool
  deriving DecidableEq, Repr

/-- The end of `DoRunTestSequence`, distbench_test_sequencer.cc:206-222. -/
def finishSequence (c : SequenceSettings) (results : List TestResult) : Ended :=
  if c.byteSize results > maxResponseSize then
    { error := some ("Result proto is too big: ".toList ++ digits (c.byteSize results) ++
        "B (max: ".toList ++ digits maxResponseSize ++ "B)".toList)
      results := [], shutdown := c.shutdownAfterTests }
  else { error := none, results := results, shutdown := c.shutdownAfterTests }

/-- One call of `RunTestSequence` with a sequence that was accepted: how many tests it has, its
settings, and how each test would turn out if run.  Code: distbench_test_sequencer.cc:97-137. -/
structure Call where
  tests : Nat
  settings : SequenceSettings
  outcome : Nat → Except Str TestResult

/-- Where a call is.  `waiting n` is line 114-118: the lock is released and the call waits for the
notification of call `n` (`none`: there was no notification to wait for).  `between k` is the top of
the loop of `DoRunTestSequence` with `k` tests done, `testing k` is inside `DoRunTest`, `ended` is
after `DoRunTestSequence` and before `Notify`, `notified` is before line 133.
Code: distbench_test_sequencer.cc:97-137, 180-223. -/
inductive Place where
  | arriving
  | waiting (n : Option Nat)
  | between (k : Nat)
  | testing (k : Nat)
  | ended (e : Ended)
  | notified (e : Ended)
  | returned (e : Ended)
  deriving DecidableEq, Repr

/-- The state of one call: where it is and the results so far.
Code: distbench_test_sequencer.cc:97-137, 180-223. -/
structure CallState where
  place : Place := .arriving
  results : List TestResult := []
  cancelled : Bool := false
  deriving DecidableEq, Repr

/-- All calls, `running_test_sequence_context_` and `running_test_notification_` (both identified by
the number of the call they belong to), distbench_test_sequencer.h:108-111, and the calls that have
been notified. -/
structure Calls where
  calls : List CallState
  context : Option Nat := none
  notification : Option Nat := none
  notified : List Nat := []
  deriving DecidableEq, Repr

/-- `running_test_sequence_context_->TryCancel()` if set, distbench_test_sequencer.cc:110-112. -/
def Calls.tryCancel (s : Calls) : Calls :=
  match s.context with
  | none => s
  | some j => { s with calls := s.calls.modify j fun c => { c with cancelled := true } }

/-- Moves call `i`.  Code: distbench_test_sequencer.cc:97-137, 180-223. -/
def Calls.move (s : Calls) (i : Nat) (p : Place) : Calls :=
  { s with calls := s.calls.modify i fun c => { c with place := p } }

/-- Steps of concurrent `RunTestSequence` calls, distbench_test_sequencer.cc:97-137 and 180-205.  Each
critical section of `mutex_` is one step.  `prog` gives what each call was asked to do. -/
inductive CallStep (prog : List Call) : Calls → Calls → Prop
  /-- Lines 109-114, first time round the loop. -/
  | look {s i c} : s.calls[i]? = some c → c.place = .arriving →
      CallStep prog s (s.tryCancel.move i (.waiting s.notification))
  /-- Lines 116-120 and, as a context is still set, 110-114 again. -/
  | again {s i c n j} : s.calls[i]? = some c → c.place = .waiting n →
      (∀ k, n = some k → k ∈ s.notified) → s.context = some j →
      CallStep prog s (s.tryCancel.move i (.waiting s.notification))
  /-- Lines 116-125: no context is set, so the call takes over. -/
  | start {s i c n} : s.calls[i]? = some c → c.place = .waiting n →
      (∀ k, n = some k → k ∈ s.notified) → s.context = none →
      CallStep prog s
        { s.move i (.between 0) with context := some i, notification := some i }
  /-- Lines 183-190: the next test is started unless the call was cancelled. -/
  | test {s i c k p} : s.calls[i]? = some c → c.place = .between k → prog[i]? = some p →
      k < p.tests → c.cancelled = false → CallStep prog s (s.move i (.testing k))
  /-- Lines 185-188: the call was cancelled. -/
  | cancelled {s i c k p} : s.calls[i]? = some c → c.place = .between k → prog[i]? = some p →
      k < p.tests → c.cancelled = true →
      CallStep prog s (s.move i (.ended
        { error := some "Cancelled by new test sequence.".toList, results := c.results
          shutdown := false }))
  /-- Lines 190-195: the test failed. -/
  | failed {s i c k p e} : s.calls[i]? = some c → c.place = .testing k → prog[i]? = some p →
      p.outcome k = .error e →
      CallStep prog s (s.move i (.ended { error := some e, results := c.results, shutdown := false }))
  /-- Lines 196-204: the test succeeded. -/
  | passed {s i c k p r} : s.calls[i]? = some c → c.place = .testing k → prog[i]? = some p →
      p.outcome k = .ok r →
      CallStep prog s
        { s with calls := s.calls.modify i fun c =>
            { c with place := .between (k + 1), results := c.results ++ [reported p.settings r] } }
  /-- Lines 206-222: no test is left. -/
  | finish {s i c k p} : s.calls[i]? = some c → c.place = .between k → prog[i]? = some p →
      p.tests ≤ k →
      CallStep prog s (s.move i (.ended (finishSequence p.settings c.results)))
  /-- Line 132. -/
  | notify {s i c e} : s.calls[i]? = some c → c.place = .ended e →
      CallStep prog s { s.move i (.notified e) with notified := i :: s.notified }
  /-- Lines 133-136. -/
  | clear {s i c e} : s.calls[i]? = some c → c.place = .notified e →
      CallStep prog s { s.move i (.returned e) with context := none }

/-- The states that can be reached when `prog` lists the calls made.
Code: distbench_test_sequencer.cc:97-137, 180-223. -/
inductive CallRun (prog : List Call) : Calls → Prop
  | init : CallRun prog { calls := prog.map fun _ => {} }
  | step {s s'} : CallRun prog s → CallStep prog s s' → CallRun prog s'

end Distbench.Sequencer
