import Verif.Model.Basic

/-! Model of RPC trace replay: `RpcReplayTraceRunner` (distbench_engine.cc:1051-1256).  The thread
that runs `Run` and the callbacks of the RPCs are steps of a transition system. -/

namespace Distbench.Replay

/-- `RpcReplayTraceRecord::TimingMode`, traffic_config.proto:145-151. -/
inductive Mode where
  | unknown
  | trafficStart
  | traceStart
  | priorStart
  | priorEnd
  deriving DecidableEq, Repr

/-- `message RpcReplayTraceRecord`, traffic_config.proto:144-181.  Not represented: `rpc_class` and
`server_processing_time_ns`, which the runner does not read. -/
structure Record where
  timingNs : Option Int := none
  timingMode : Option Mode := none
  priorRpcDistances : List Int := []
  clientInstance : Option Int := none
  serverInstance : Option Int := none
  channelIndex : Option Int := none
  requestSize : Option Int := none
  responseSize : Option Int := none
  deriving DecidableEq, Repr

/-- `defaults.MergeFrom(record)`: set fields replace, repeated fields are appended.
Code: distbench_engine.cc:1107-1108. -/
def Record.merge (defaults r : Record) : Record :=
  { timingNs := r.timingNs.or defaults.timingNs
    timingMode := r.timingMode.or defaults.timingMode
    priorRpcDistances := defaults.priorRpcDistances ++ r.priorRpcDistances
    clientInstance := r.clientInstance.or defaults.clientInstance
    serverInstance := r.serverInstance.or defaults.serverInstance
    channelIndex := r.channelIndex.or defaults.channelIndex
    requestSize := r.requestSize.or defaults.requestSize
    responseSize := r.responseSize.or defaults.responseSize }

/-- What a run depends on: the trace, the instance of the client (`service_instance_`), the start
times of traffic and of the run (distbench_engine.cc:1102), and the tables `logical_to_pdid` and
`logical_to_msc` (1283-1301). -/
structure Env where
  defaults : Record
  records : List Record
  localInstance : Int
  trafficStart : Int
  traceStart : Int
  pdIds : List Int
  channels : List Int

/-- `trace->defaults()` merged with `trace->records(i)`.  Code: distbench_engine.cc:1107-1108. -/
def Env.record (e : Env) (i : Nat) : Record := e.defaults.merge (e.records[i]?.getD {})

/-- The test in distbench_engine.cc:1109-1112 and 1121-1122, negated: the RPC is made by this
instance. -/
def Env.mine (e : Env) (i : Nat) : Bool :=
  !((e.record i).clientInstance.isSome &&
    (e.record i).clientInstance.getD 0 != e.localInstance)

/-- `timing_mode` of record `i`.  Code: distbench_engine.cc:1107-1108. -/
def Env.mode (e : Env) (i : Nat) : Mode := (e.record i).timingMode.getD .unknown

/-- `timing_ns` of record `i`.  Code: distbench_engine.cc:1107-1108. -/
def Env.timing (e : Env) (i : Nat) : Int := (e.record i).timingNs.getD 0

/-! ### setting up -/

/-- The fields `deps`, `ready_rpcs` and `remaining_trace_rpcs` (distbench_engine.cc:1081-1092).  The
queue is the list of its elements, in any order.  Simplification: times do not overflow. -/
structure Plan where
  remainingDeps : Nat → Int
  startDependents : Nat → List Nat
  endDependents : Nat → List Nat
  ready : List (Int × Nat)
  remaining : Int

/-- Before the loop over the records.  Code: distbench_engine.cc:1100-1110. -/
def Plan.empty : Plan :=
  { remainingDeps := fun _ => 0, startDependents := fun _ => [], endDependents := fun _ => []
    ready := [], remaining := 0 }

/-- `push_back(i)` on entry `j`.  Code: distbench_engine.cc:1129-1135. -/
def pushAt (f : Nat → List Nat) (j i : Nat) : Nat → List Nat :=
  fun k => if k = j then f k ++ [i] else f k

/-- The loop over the distances of record `i`, distbench_engine.cc:1115-1134; `n` is
`valid_deps`. -/
def addDeps (e : Env) (i : Nat) : List Int → Plan → Int → Outcome (Plan × Int)
  | [], p, n => .ok (p, n)
  | d :: ds, p, n =>
    if d < 0 then .crash
    else if (i : Int) - 1 - d < 0 then .crash
    else
      let j := ((i : Int) - 1 - d).toNat
      if !e.mine j then addDeps e i ds p n
      else
        let p := match e.mode i with
          | .priorStart => { p with startDependents := pushAt p.startDependents j i }
          | .priorEnd => { p with endDependents := pushAt p.endDependents j i }
          | _ => p
        addDeps e i ds p (n + 1)

/-- The body of the loop over the records, distbench_engine.cc:1107-1145. -/
def addRecord (e : Env) (i : Nat) (p : Plan) : Outcome Plan :=
  if !e.mine i then .ok p
  else
    match addDeps e i (e.record i).priorRpcDistances { p with remaining := p.remaining + 1 } 0 with
    | .ok (p, n) =>
      let p := { p with remainingDeps := fun k => if k = i then n else p.remainingDeps k }
      if n = 0 then
        match e.mode i with
        | .traceStart => .ok { p with ready := p.ready ++ [(e.traceStart + e.timing i, i)] }
        | _ => .ok { p with ready := p.ready ++ [(e.trafficStart + e.timing i, i)] }
      else .ok p
    | .error m => .error m
    | .ub => .ub
    | .crash => .crash

/-- The loop itself, from record `i` on, with `k` records left.  Code: distbench_engine.cc:1106-1146. -/
def addRecords (e : Env) : Nat → Nat → Plan → Outcome Plan
  | 0, _, p => .ok p
  | k + 1, i, p => (addRecord e i p).bind (addRecords e k (i + 1))

/-- `SetupDependencies`, distbench_engine.cc:1099-1147. -/
def setup (e : Env) : Outcome Plan := addRecords e e.records.length 0 .empty

/-! ### running -/

/-- An RPC handed to the protocol driver: to a peer or over a multi-server channel, with the size
the request is padded to and the size asked for, if any.  Code: distbench_engine.cc:1195-1256. -/
structure Sent where
  peer : Option Int
  channel : Option Int
  requestSize : Option Int
  responseSize : Option Int
  deriving DecidableEq, Repr

/-- distbench_engine.cc:1218-1246. -/
def send (e : Env) (i : Nat) : Outcome Sent :=
  let r := e.record i
  match r.channelIndex with
  | some c =>
    if c < 0 ∨ c ≥ e.channels.length then .crash
    else .ok { peer := none, channel := e.channels[c.toNat]?, requestSize := none, responseSize := none }
  | none =>
    let s := r.serverInstance.getD 0
    if s < 0 ∨ s ≥ e.pdIds.length then .crash
    else
      let id := (e.pdIds[s.toNat]?).getD 0
      if id < 0 then .crash
      else .ok { peer := some id, channel := none
                 requestSize := some (r.requestSize.getD 0)
                 responseSize := some (r.responseSize.getD 0) }

/-- The loops of `ActivateStartDeps` and `ActivateEndDeps`, distbench_engine.cc:1151-1157, 1164-1170,
with the time of the RPC they depend on. -/
def activate (e : Env) (time : Int) : List Nat → (Nat → Int) × List (Int × Nat) →
    (Nat → Int) × List (Int × Nat)
  | [], x => x
  | k :: ks, (deps, ready) =>
    let left := deps k - 1
    let deps := fun m => if m = k then left else deps m
    activate e time ks
      (deps, if left = 0 then ready ++ [(time + e.timing k, k)] else ready)

/-- Where the thread is in `Run`: at the top of the loop; after taking an RPC from the queue (1195);
after handing it to the driver (1246); returned; in a failed `CHECK` for
record `i`.  Code: distbench_engine.cc:1180-1256. -/
inductive Main where
  | loop
  | popped (time : Int) (i : Nat)
  | sent (i : Nat) (start : Int)
  | done
  | aborted (i : Nat)
  deriving DecidableEq, Repr

/-- What happened, in order.  `told`: the RPCs that depend on the start of `i` have been told;
`sampled`: a sample was put into the log (1174) and those that depend on the end have been told.
Code: distbench_engine.cc:1150-1256. -/
inductive Event where
  | issued (i : Nat) (time : Int) (what : Sent)
  | told (i : Nat)
  | ended (i : Nat) (time : Int)
  | sampled (i : Nat) (start latency : Int)
  deriving DecidableEq, Repr

/-- `running`: RPCs in flight with their start times; `ending`: callbacks that have read the clock
(1204) and not yet taken the lock, with start and end times.  Code: distbench_engine.cc:1051-1256. -/
structure State where
  main : Main
  now : Int
  deps : Nat → Int
  ready : List (Int × Nat)
  remaining : Int
  finished : Bool
  running : List (Nat × Int)
  ending : List (Nat × Int × Int)
  log : List Event

/-- The state at the beginning of `Run`.  Code: distbench_engine.cc:1180-1195. -/
def start (p : Plan) (now : Int) : State :=
  { main := .loop, now := now, deps := p.remainingDeps, ready := p.ready, remaining := p.remaining
    finished := false, running := [], ending := [], log := [] }

/-- `ActivateStartDeps`, distbench_engine.cc:1149-1158. -/
def activateStart (e : Env) (p : Plan) (i : Nat) (time : Int) (s : State) : State :=
  let (deps, ready) := activate e time (p.startDependents i) (s.deps, s.ready)
  { s with main := .loop, deps := deps, ready := ready, log := s.log ++ [.told i] }

/-- `ActivateEndDeps`, distbench_engine.cc:1160-1175, of an RPC from `st` to `et`. -/
def activateEnd (e : Env) (p : Plan) (i : Nat) (st et : Int) (s : State) : State :=
  let time := e.traceStart + (st - e.traceStart) + (et - st)
  let (deps, ready) := activate e time (p.endDependents i) (s.deps, s.ready)
  { s with deps := deps, ready := ready, finished := true, remaining := s.remaining - 1
           log := s.log ++ [.sampled i (st - e.traceStart) (et - st)] }

/-- The steps of `Run` (distbench_engine.cc:1177-1255) and of the callbacks (1203-1217).  The clock
does not go back. -/
inductive Step (e : Env) (p : Plan) : State → State → Prop where
  | tick {s} (t : Int) : s.now ≤ t → Step e p s { s with now := t }
  | exit {s} : s.main = .loop → s.remaining = 0 → Step e p s { s with main := .done }
  | awake {s} : s.main = .loop → s.remaining ≠ 0 → s.finished = true →
      Step e p s { s with finished := false }
  | pop {s l1 l2 t i} : s.main = .loop → s.remaining ≠ 0 → s.finished = false →
      s.ready = l1 ++ (t, i) :: l2 → (∀ x ∈ s.ready, t ≤ x.1) → t ≤ s.now →
      Step e p s { s with main := .popped t i, ready := l1 ++ l2 }
  | send {s t i what} : s.main = .popped t i → send e i = .ok what →
      Step e p s { s with main := .sent i s.now, running := s.running ++ [(i, s.now)]
                          log := s.log ++ [.issued i s.now what] }
  | abort {s t i} : s.main = .popped t i → send e i = .crash → Step e p s { s with main := .aborted i }
  | told {s i st} : s.main = .sent i st → Step e p s (activateStart e p i st s)
  | finish {s l1 l2 i st} : s.running = l1 ++ (i, st) :: l2 →
      Step e p s { s with running := l1 ++ l2, ending := s.ending ++ [(i, st, s.now)]
                          log := s.log ++ [.ended i s.now] }
  | sample {s l1 l2 i st et} : s.ending = l1 ++ (i, st, et) :: l2 →
      Step e p s { activateEnd e p i st et s with ending := l1 ++ l2 }

/-- The states of a run.  Code: distbench_engine.cc:1051-1256. -/
inductive Reachable (e : Env) (p : Plan) : State → Prop where
  | start (now : Int) : Reachable e p (start p now)
  | step {s s'} : Reachable e p s → Step e p s s' → Reachable e p s'

end Distbench.Replay
