import Verif.Model.RpcAction
import Verif.Spec.Logs
import Verif.Spec.Fanout

/-! Vocabulary for actions that run an RPC. -/

namespace Distbench.Spec
open RpcAction

/-- The instances that the RPCs of iteration `k` in `l` went to. -/
def peersIn (k : Int) (l : List Call) : List Nat :=
  (l.filter (fun c => c.iteration = k)).map (·.peer)

/-- How often the first `n` iterations fan out to instance `t`. -/
def timesTargeted (targets : Int → List Nat) (t n : Nat) : Nat :=
  ((List.range n).map (fun (k : Nat) => (targets k).count t)).sum

/-- How many RPCs the first `n` iterations fan out to. -/
def fanOutTotal (targets : Int → List Nat) (n : Nat) : Nat :=
  ((List.range n).map (fun (k : Nat) => (targets k).length)).sum

/-- How many samples a reader of the log finds for a peer and an RPC. -/
def samplesFound (log : List (Str × Logs.PeerLog)) (name : Str) (rpc : Nat) : Nat :=
  (found log name rpc true).length + (found log name rpc false).length

/-- How many of them are marked as taken during warmup. -/
def warmupsFound (log : List (Str × Logs.PeerLog)) (name : Str) (rpc : Nat) : Nat :=
  (found log name rpc true).countP (fun x => x.warmup.getD false) +
  (found log name rpc false).countP (fun x => x.warmup.getD false)

/-- What a service instance reports after the only run of an action list, if the samples of the run
were `report`; `names` are the names of its peers. -/
def logOf (names : List (List Str)) (report : List (Sampling.Key × Sampling.Sample)) :
    List (Str × Logs.PeerLog) :=
  Logs.getLogs names (Logs.mergeRun (fun _ _ => []) report)

/-- The number of the sender in the service it sends to, if it is in that service. -/
def senderOf (c : Fanout.Ctx) : Option Int := if c.excludeSelf then some c.instance_ else none

/-- Each iteration fans out to what the fan-out filter "all" yields in a service with `size`
instances. -/
def ToAll (size : Int) (sender : Option Int) (_ : Int) (ts : List Nat) : Prop :=
  ∃ c, Valid c ∧ c.parsed.filter = .grid false false false ∧ c.numServers = size ∧
    senderOf c = sender ∧ Fanout.pickRpcFanoutTargets c = some (ts.map (fun (t : Nat) => (t : Int)))

end Distbench.Spec
