import Verif.Model.Tables
import Verif.Model.Iterations
import Verif.Model.Traffic
import Verif.Model.Report

/-! From a traffic configuration to the traffic of a whole test: every engine builds its own tables from
the configuration (Model/Tables.lean), chooses the targets of its RPCs (Model/Fanout.lean) and takes part
in the traffic (Model/Traffic.lean).  distbench_engine.cc:437-660, 876-905, 977-1049, 1793-1968,
2238-2258, 2381-2517.

Simplified: as Model/Traffic.lean; multi-server channels are left out as well. -/

namespace Distbench.Whole
open Tables Services

/-- A test: its configuration, the tables that the engines of each service built, and the thread pools of
the engines.  Code: distbench_engine.h:380-440. -/
structure Test where
  cfg : Config
  tables : Nat → Tables
  threads : Nat → Option Nat

/-- All instances, as pairs of a service's position and a number in this service.  An engine is named by
its place in this list.  Code: distbench_engine.cc:760-800 (the loops over `peers_`),
distbench_utils.cc:100-118 (EnumerateServiceInstanceIds). -/
def places (cfg : Config) : List (Nat × Nat) :=
  cfg.services.zipIdx.flatMap fun s => (List.range s.1.getCount.toNat).map fun n => (s.2, n)

/-- The service of an engine, `service_index_`.  Code: distbench_engine.cc:645-660. -/
def serviceOf (cfg : Config) (e : Nat) : Option Nat := ((places cfg)[e]?).map (·.1)

/-- The engine at `peers_[service][instance]`.  Code: distbench_engine.cc:760-800, 2160-2176. -/
def engineAt (cfg : Config) (service instance_ : Nat) : Option Nat :=
  (places cfg).idxOf? (service, instance_)

/-- What an iteration of an action does, by the tests of `InitiateAction`; an RPC goes to `fan` servers.
Code: distbench_engine.cc:1793-1905. -/
def toWork (fan : Nat → Nat) (x : ActionEntry) : Traffic.Work :=
  if 0 ≤ x.rpcReplayTraceIndex then .other
  else if 0 ≤ x.actionlistIndex then .list x.actionlistIndex.toNat
  else if 0 ≤ x.rpcServiceIndex then .rpc x.rpcIndex.toNat (fan x.rpcIndex.toNat)
  else .other

/-- An action of the traffic, from its entry in the tables.  With a time limit, the iterations that begin in
any case are in a closed loop those that begin together, in an open loop the first one.
Code: distbench_engine.cc:1405-1408, 1434-1445, 1907-1968, 1970-1990. -/
def toAction (fan : Nat → Nat) (x : ActionEntry) : Traffic.Action :=
  { deps := x.dependentActionIndices.map Int.toNat
    work := toWork fan x
    iters := (Iterations.params x.proto 0 false).limit.toNat
    parallel :=
      if (Iterations.params x.proto 0 false).openLoop then (Iterations.params x.proto 0 false).limit.toNat
      else (Iterations.params x.proto 0 false).copies.toNat
    responds := x.proto.sendResponseWhenDone
    conditional := !x.proto.predicates.isEmpty
    timed := match (Iterations.params x.proto 0 false).timeLimit with
      | .future => none
      | _ => some (if (Iterations.params x.proto 0 false).openLoop then 1
          else (Iterations.params x.proto 0 false).copies.toNat) }

/-- The actions of a list.  Code: distbench_engine.cc:1311-1357. -/
def actionsOf (t : Tables) (l : Nat) : List ActionEntry := ((t.actionLists[l]?).map (·.listActions)).getD []

/-- The sizes of the rows of `peer_logs_` in a run of the list `l`: none if the list has no RPCs, otherwise
those of `peers_`.  Code: distbench_engine.cc:1339-1352. -/
def logRows (cfg : Config) (t : Tables) (l : Nat) : List Nat :=
  match t.actionLists[l]? with
  | none => []
  | some entry => if entry.hasRpcs then cfg.services.map fun s => s.getCount.toNat else []

/-- The list that an engine runs for an RPC that arrives, if any: an RPC that is not meant for the service
is answered with an error, and one whose list is empty at once.
Code: distbench_engine.cc:1014-1036 (RpcHandler). -/
def handlerOf (t : Tables) (q : Nat) : Option Nat :=
  match t.rpcTable[q]? with
  | none => none
  | some r =>
    if r.allowed = true ∧ 0 ≤ r.handlerActionlistIndex then some r.handlerActionlistIndex.toNat else none

/-- The service that an RPC goes to.  Code: distbench_engine.cc:623-640. -/
def serverOf (t : Tables) (q : Nat) : Option Nat := (t.rpcTable[q]?).map (·.serviceIndex.toNat)

/-- The list that the engines of a service run when the traffic starts: the first one with the name of
the service.  Code: distbench_engine.cc:882-901 (RunTraffic). -/
def rootList (cfg : Config) (service : Nat) : Option Nat :=
  match cfg.services[service]? with
  | none => none
  | some s => cfg.actionLists.findIdx? fun l => s.name = l.name

/-- The engines that run a list when the traffic starts.  Code: distbench_engine.cc:876-901. -/
def roots (cfg : Config) : List (Nat × Nat) :=
  (places cfg).zipIdx.filterMap fun p => (rootList cfg p.1.1).map fun l => (p.2, l)

/-- The test as the engine `e` sees it, by its own tables.  Code: distbench_engine.cc:437-660. -/
def engineConfig (w : Test) (fan : Nat → Nat) (e : Nat) : Traffic.Config :=
  let t := w.tables ((serviceOf w.cfg e).getD 0)
  { actions := fun l => (actionsOf t l).map (toAction fan)
    handler := handlerOf t
    servers := fun q e' => (serverOf t q).isSome && decide (serviceOf w.cfg e' = serverOf t q)
    threads := w.threads
    roots := roots w.cfg }

/-- What is random or shared when targets are chosen: `rpc_tracing_counter`, the draws and the shuffle.
Code: distbench_engine.cc:2119, 2430-2515. -/
structure Draws where
  counter : Int
  draw : Int → Int
  uniform : Rat
  shuffle : List Int → List Int

/-- The contracts of the counter (as long as it has not overflowed), of `std::uniform_int_distribution`
and of `std::shuffle`.  Code: distbench_engine.cc:2119, 2430-2515. -/
def Draws.Fair (d : Draws) : Prop :=
  0 ≤ d.counter ∧ (∀ hi, 0 ≤ hi → 0 ≤ d.draw hi ∧ d.draw hi ≤ hi) ∧ ∀ l, (d.shuffle l).Perm l

/-- `peers_[service].size()`.  Code: distbench_engine.cc:760-800, 2388. -/
def serverCount (cfg : Config) (service : Int) : Int :=
  ((cfg.services[service.toNat]?).map (·.getCount)).getD 0

/-- What `PickRpcFanoutTargets` reads, for an action with the RPC `r` of the engine at `place`.
Code: distbench_engine.cc:2381-2391. -/
def context (cfg : Config) (place : Nat × Nat) (grid : GridIndex) (x : ActionEntry) (r : RpcEntry)
    (d : Draws) : Fanout.Ctx :=
  { parsed := r.definition.fanout
    peer := r.definition.serverSpec
    excludeSelf := decide (x.rpcServiceIndex = place.1)
    numServers := serverCount cfg x.rpcServiceIndex
    instance_ := place.2
    grid := grid
    counter := d.counter
    draw := d.draw
    uniform := d.uniform
    shuffle := d.shuffle }

/-- An iteration of the action `x` of engine `e` may send RPCs to the engines `targets`: the RPC is allowed
from this client, there are servers, and these are the chosen ones.  (Otherwise `InitiateAction` returns
without starting iterations.)  Code: distbench_engine.cc:1860-1882, 2246-2252, 2381-2517. -/
def Picks (w : Test) (e : Nat) (x : ActionEntry) (targets : List Nat) : Prop :=
  ∃ (place : Nat × Nat) (own : ServiceSpec) (grid : GridIndex) (r : RpcEntry) (d : Draws) (ts : List Int),
    (places w.cfg)[e]? = some place ∧ w.cfg.services[place.1]? = some own ∧
    getServiceIndex own place.2 = some grid ∧
    (w.tables place.1).rpcTable[x.rpcIndex.toNat]? = some r ∧
    r.definition.allowedFromThisClient = true ∧ 0 < serverCount w.cfg x.rpcServiceIndex ∧ d.Fair ∧
    Fanout.pickRpcFanoutTargets (context w.cfg place grid x r d) = some ts ∧ (∀ t ∈ ts, 0 ≤ t) ∧
    ts.map (fun t => engineAt w.cfg x.rpcServiceIndex.toNat t.toNat) = targets.map some

/-- The engine that takes a step.  Code: distbench_engine.cc:977-2110. -/
def engineOf (s : Traffic.State) : Traffic.Op → Nat
  | .start j _ | .skip j _ | .iterate j _ _ | .finish j _ | .endJob j =>
    ((s.jobs[j]?).map (·.engine)).getD 0
  | .deliver c | .dispatch c | .complete c => ((s.calls[c]?).map (·.target)).getD 0

/-- The number of targets, if the step is an iteration.  Code: distbench_engine.cc:2105-2113. -/
def fanOf : Traffic.Op → Nat
  | .iterate _ _ targets => targets.length
  | _ => 0

/-- The targets of an iteration with RPCs are chosen by the engine.
Code: distbench_engine.cc:2246-2252. -/
def Chosen (w : Test) (s : Traffic.State) : Traffic.Op → Prop
  | .iterate j a targets => ∀ (job : Traffic.Job) (x : ActionEntry), s.jobs[j]? = some job →
      (actionsOf (w.tables ((serviceOf w.cfg job.engine).getD 0)) job.list)[a]? = some x →
      (∃ q k, toWork (fun _ => 0) x = .rpc q k) → Picks w job.engine x targets
  | _ => True

/-- A step, taken by one engine on the grounds of its own tables.  Code: distbench_engine.cc:977-2110. -/
def Step (w : Test) (s : Traffic.State) (op : Traffic.Op) (s' : Traffic.State) : Prop :=
  Chosen w s op ∧ Traffic.step (engineConfig w (fun _ => fanOf op) (engineOf s op)) s op = some s'

/-- The start of the traffic: each engine runs its list, by its own tables.
Code: distbench_engine.cc:876-901. -/
def start (w : Test) : Traffic.State :=
  { jobs := (roots w.cfg).map fun r => Traffic.newJob (engineConfig w (fun _ => 0) r.1) r.1 r.2 .root }

/-- The test may take these steps and come to this state.  Code: distbench_engine.cc:876-2110. -/
inductive Runs (w : Test) : List Traffic.Op → Traffic.State → Prop where
  | start : Runs w [] (start w)
  | step {ops : List Traffic.Op} {s s' : Traffic.State} (op : Traffic.Op) :
      Runs w ops s → Step w s op s' → Runs w (ops ++ [op]) s'

/-- What the results of a test need to know besides its traffic: the entries of `peers_` and their names,
and the limits of the lists.  Code: distbench_engine.cc:760-800 (peers_), 945-956 (the names in the logs),
1340-1344 (max_rpc_samples). -/
def setupOf (w : Test) (failed warmup : Nat → Bool) : Report.Setup :=
  { place := fun e => ((places w.cfg)[e]?).getD (0, 0)
    names := w.cfg.services.map fun s => (serviceInstanceNames s).getD []
    limit := fun l => ((w.cfg.actionLists[l]?).map (·.maxRpcSamples)).getD 0
    failed := failed
    warmup := warmup }

end Distbench.Whole
