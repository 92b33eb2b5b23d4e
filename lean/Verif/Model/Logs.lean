import Verif.Model.Sampling

/-! Model of how the samples of the runs of action lists are put together in the log of a service
instance: the end of `RunActionList` (distbench_engine.cc:1500-1512) and `GetLogs`
(distbench_engine.cc:940-970). -/

namespace Distbench.Logs
open Sampling

/-- `RpcPerformanceLog`, distbench.proto:101-104. -/
structure RpcLog where
  successful : List Sample
  failed : List Sample

/-- `operator[]` of a map, followed by a change of the value.  Maps are lists of pairs.
Code: distbench_engine.cc:1500-1512, 1645-1680. -/
def upd {κ α : Type} [DecidableEq κ] (k : κ) (new : α) (f : α → α) : List (κ × α) → List (κ × α)
  | [] => [(k, f new)]
  | (k', v) :: l => if k' = k then (k', f v) :: l else (k', v) :: upd k new f l

/-- `PeerPerformanceLog`, distbench.proto:106-109. -/
abbrev PeerLog := List (Nat × RpcLog)

/-- `MergeFrom` of an `RpcPerformanceLog`: repeated fields are appended.
Code: distbench_engine.cc:1500-1512. -/
def RpcLog.mergeFrom (l l' : RpcLog) : RpcLog :=
  { successful := l.successful ++ l'.successful, failed := l.failed ++ l'.failed }

/-- A log without samples.  Code: distbench_engine.cc:1645-1680. -/
def noLog : RpcLog := { successful := [], failed := [] }

/-- `add_successful_rpc_samples` or `add_failed_rpc_samples` (distbench_engine.cc:1660-1662, 1737-1738). -/
def addSample (logs : Nat → Nat → PeerLog) (e : Key × Sample) : Nat → Nat → PeerLog :=
  fun i j =>
    if i = e.1.service ∧ j = e.1.instance_ then
      upd e.1.rpcIndex noLog (fun l => if e.1.success
        then { l with successful := l.successful ++ [e.2] }
        else { l with failed := l.failed ++ [e.2] }) (logs i j)
    else logs i j

/-- `peer_logs_` after the given samples have been added.  Code: distbench_engine.cc:1645-1680. -/
def runLogs (report : List (Key × Sample)) : Nat → Nat → PeerLog :=
  report.foldl addSample (fun _ _ => [])

/-- The end of `RunActionList`, distbench_engine.cc:1504-1510, for each peer.  The list has RPCs
(`has_rpcs`), or else there are no samples. -/
def mergeRun (partials : Nat → Nat → List PeerLog) (report : List (Key × Sample)) :
    Nat → Nat → List PeerLog :=
  fun i j => if (runLogs report i j).isEmpty then partials i j
    else partials i j ++ [runLogs report i j]

/-- distbench_engine.cc:949-958. -/
def mergeRpc (name : Str) (out : List (Str × PeerLog)) (e : Nat × RpcLog) : List (Str × PeerLog) :=
  if e.2.successful.isEmpty && e.2.failed.isEmpty then out
  else upd name [] (upd e.1 noLog (fun l => l.mergeFrom e.2)) out

/-- distbench_engine.cc:948-959: the loops over the partial logs of a peer.  Simplification: a map
is iterated over in the order in which its keys were added. -/
def mergePeer (name : Str) (out : List (Str × PeerLog)) (logs : List PeerLog) :
    List (Str × PeerLog) :=
  logs.foldl (fun out log => log.foldl (mergeRpc name) out) out

/-- `GetLogs`, distbench_engine.cc:945-962: the field `peer_logs`; `names` are the `log_name`s of
`peers_`. -/
def getLogs (names : List (List Str)) (partials : Nat → Nat → List PeerLog) :
    List (Str × PeerLog) :=
  names.zipIdx.foldl (fun out row => row.1.zipIdx.foldl
    (fun out p => mergePeer p.1 out (partials row.2 p.2)) out) []

end Distbench.Logs
