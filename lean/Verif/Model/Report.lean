import Verif.Model.Traffic
import Verif.Model.Logs
import Verif.Model.Summary

/-! From the traffic of a test to its results: the samples that the runs of action lists take of their
RPCs, the logs of the engines, and the test result that the summary is made from.
distbench_engine.cc:1340-1353, 1462-1512 (RunActionList), 2060-2110 (RunRpcActionIteration),
distbench_node_manager.cc:209-234 (GetTrafficResult), distbench_test_sequencer.cc:581-634 (RunTraffic).

Simplified: activities and replay traces, which have logs of their own, are left out, and so are
multi-server channels; every node answers `GetTrafficResult`. -/

namespace Distbench.Report
open Traffic

/-- What the traffic of a test does not tell: which instance of which service an engine is (the indices
into `peers_`), the names of the instances, `max_rpc_samples` of the lists, and for each RPC (by its
place in `State.calls`) whether it failed and whether it was a warmup.
Code: distbench_engine.h:129-145 (PeerMetadata), distbench_engine.cc:1340-1344, 1682-1690. -/
structure Setup where
  place : Nat → Nat × Nat
  names : List (List Str)
  limit : Nat → Int
  failed : Nat → Bool
  warmup : Nat → Bool

/-- `log_name` of an engine's entry in `peers_`, if it has one.  Code: distbench_engine.cc:945-956. -/
def Setup.nameAt (S : Setup) (e : Nat) : Option Str :=
  match S.names[(S.place e).1]? with
  | none => none
  | some row => row[(S.place e).2]?

/-- The name of an engine.  Code: distbench_node_manager.cc:215-220. -/
def Setup.nameOf (S : Setup) (e : Nat) : Str := (S.nameAt e).getD []

/-- The RPCs of the run `j` that are back, with their places.  Code: distbench_engine.cc:2060-2110. -/
def doneIn (s : State) (j : Nat) : List (Call × Nat) :=
  s.calls.zipIdx.filter fun x => x.1.job = j && x.1.stage = .completed

/-- What a sample says of an RPC, besides sizes, times and texts: the kind of RPC, the peer, success and
warmup.  Code: distbench_engine.cc:1682-1690. -/
def gist (r : Sampling.Rpc) : Nat × (Nat × Nat) × Bool × Bool :=
  (r.rpcIndex, (r.service, r.instance_), r.success, r.warmup)

/-- The same for an RPC of the traffic.  Code: distbench_engine.cc:2060-2110. -/
def gistOf (S : Setup) (x : Call × Nat) : Nat × (Nat × Nat) × Bool × Bool :=
  (x.1.rpc, S.place x.1.target, !S.failed x.2, S.warmup x.2)

/-- `report` is what `UnpackLatencySamples` makes of the samples of the run `j` of the list `l`: when it
ends, `RecordLatency` has been called once for each of its RPCs, in any order, and has returned.
Code: distbench_engine.cc:1340-1353, 1462-1512, 1645-1792. -/
def JobReport (S : Setup) (s : State) (j l : Nat) (report : List (Sampling.Key × Sampling.Sample)) : Prop :=
  ∃ st, Sampling.Reachable (Sampling.capacity (S.limit l)) st ∧ st.workers = [] ∧
    (st.recorded.map gist).Perm ((doneIn s j).map (gistOf S)) ∧
    Sampling.Unpacked (Sampling.capacity (S.limit l)) st report

/-- The runs of lists of an engine that are over.  Code: distbench_engine.cc:1502-1512. -/
def overAt (s : State) (e : Nat) : List Nat :=
  (List.range s.jobs.length).filter fun j => (s.jobs[j]?).any fun k => k.engine = e && k.over

/-- `RpcSample` as the summary reads it.  Code: distbench.proto:83-99, distbench_summary.cc:171-189. -/
def readSample (x : Sampling.Sample) : Summary.Sample :=
  { requestSize := x.requestSize, responseSize := x.responseSize, start := x.start, latency := x.latency
    warmup := x.warmup.getD false }

/-- `RpcPerformanceLog` as the summary reads it.  Code: distbench_summary.cc:163-190. -/
def readLog (l : Logs.RpcLog) : Summary.RpcLog :=
  { successful := l.successful.map readSample, failed := l.failed.map readSample }

/-- The logs of an engine, if its lists ended in this order with these reports.
Code: distbench_engine.cc:940-962, 1502-1512. -/
def engineLog (S : Setup) (report : Nat → List (Sampling.Key × Sampling.Sample)) (order : List Nat) :
    List (Str × Logs.PeerLog) :=
  Logs.getLogs S.names ((order.map report).foldl Logs.mergeRun (fun _ _ => []))

/-- The test result: the logs of the engines that are not empty (`GetTrafficResult`), put together by the
sequencer; `engines` is the order in which they come.
Code: distbench_node_manager.cc:213-221, distbench_test_sequencer.cc:607-634. -/
def result (S : Setup) (rpcNames : List Str) (engines : List Nat) (log : Nat → List (Str × Logs.PeerLog)) :
    Summary.Result :=
  { rpcNames := rpcNames
    logs := engines.filterMap fun e =>
      if (log e).isEmpty then none
      else some (S.nameOf e, (log e).map fun p => (p.1, p.2.map fun q => (q.1, readLog q.2))) }

/-- `r` is a test result that the traffic `s` may have.  Code: distbench_engine.cc:940-970,
distbench_node_manager.cc:209-234, distbench_test_sequencer.cc:581-634. -/
def Collected (S : Setup) (rpcNames : List Str) (engines : List Nat) (s : State) (r : Summary.Result) : Prop :=
  ∃ (report : Nat → List (Sampling.Key × Sampling.Sample)) (order : Nat → List Nat),
    (∀ (j : Nat) (k : Job), s.jobs[j]? = some k → JobReport S s j k.list (report j)) ∧
    (∀ e, (order e).Perm (overAt s e)) ∧
    r = result S rpcNames engines fun e => engineLog S report (order e)

end Distbench.Report
