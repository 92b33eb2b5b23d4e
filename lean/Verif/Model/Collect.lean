import Verif.Model.Basic

/-! Collecting the results of engines whose action lists may still be running.

An action list keeps the samples of its RPCs to itself until it is over and then moves them to the
logs of the peers (distbench_engine.cc 1499-1511).  The results are read from the logs of the peers
(940-969).  The list that answers an incoming RPC sends the response before it moves its samples
(1411-1429 when the response is sent early, 1485-1497 otherwise). -/

namespace Distbench.Collect

/-- A sample in a log: the run of an action list it comes from, the peer it is about and the sample
itself.  The run is not part of the sample in the code; it is kept here to tell equal samples
apart.  Code: distbench_engine.h:229-250, 285-287. -/
structure Entry where
  list : Nat
  peer : Nat
  sample : Nat
  deriving DecidableEq, Repr

/-- A run of an action list: whether it is the main list of an engine or handles an incoming RPC,
whether it has activities, the samples it has recorded and not yet moved (`peer_logs_`), whether the
response has been sent and whether it has returned.
Code: distbench_engine.h:255-302; distbench_engine.cc:1311-1516. -/
structure Run where
  main : Bool
  activities : Bool := false
  pending : List Entry := []
  responded : Bool := false
  merging : Bool := false
  ended : Bool := false
  deriving DecidableEq, Repr

/-- Where a collection of the results is: the next peer it reads and what it has so far.  The logs
of the activities are read after those of all the peers (distbench_engine.cc 945-966). -/
inductive Reader where
  | idle
  | peers (next : Nat) (found : List Entry)
  | activities (found : List Entry)
  deriving DecidableEq, Repr

/-- The runs of action lists, the logs of all peers (`peers_[i][j].partial_logs`), the collection
under way and the results collected so far, latest first.
Code: distbench_engine.h:129-145; distbench_engine.cc:940-975. -/
structure State where
  runs : List Run := []
  merged : List Entry := []
  reader : Reader := .idle
  results : List (List Entry) := []
  deriving DecidableEq, Repr

/-- What happens.  Code: distbench_engine.cc:876-902, 940-1049, 1311-1516. -/
inductive Op where
  /-- An action list starts: `RunTraffic`, distbench_engine.cc 876-902, or an incoming RPC. -/
  | start (main activities : Bool)
  /-- An RPC of a list to a peer ends and is recorded; `server` is the run of the list that handled
  it, if it was handled by one of the runs described here. -/
  | complete (list peer sample : Nat) (server : Option Nat)
  /-- A list that handles an incoming RPC sends the response. -/
  | respond (list : Nat)
  /-- A list moves its samples about one peer to the log of that peer. -/
  | merge (list peer : Nat)
  /-- A list adds up what its activities did, and is over. -/
  | finish (list : Nat)
  /-- The collection of the results begins. -/
  | beginCollect
  /-- It reads the log of the next peer. -/
  | readPeer
  /-- It begins to read the logs of the activities. -/
  | readActivities
  /-- It is over. -/
  | endCollect
  deriving DecidableEq, Repr

/-- Change one run.  Code: distbench_engine.cc:1311-1516. -/
def setRun (s : State) (l : Nat) (r : Run) : State := { s with runs := s.runs.set l r }

/-- One step, `none` if it cannot happen, for peers numbered below `peers` (all the peers of all the
engines of the node).  From distbench_engine.cc 1485-1516, 876-902, 940-969 and
distbench_node_manager.cc 190-233: results are asked for after `RunTraffic` has returned, so all main
lists are over.  A response reaches the client after it was sent; a response is sent once.  A list
that is over records nothing.  Each merge and each read holds the mutex of the peer; the logs of the
activities are written with `cumulative_activity_log_mu_` held (1514-1515) and read without it
(921-930), so a list with activities that ends meanwhile makes a data race.  Simplifications: all
samples are kept (no `packed_samples_`); the order of the peers within a merge is free; a list
without activities writes nothing. -/
def step (peers : Nat) (s : State) : Op → Option (Outcome State)
  | .start main activities => some (.ok { s with runs := s.runs ++ [{ main := main, activities := activities }] })
  | .complete l peer sample server =>
    match s.runs[l]? with
    | none => none
    | some r =>
      if r.merging ∨ r.ended ∨ ¬ peer < peers ∨ ¬ (server.all fun k => (s.runs[k]?).any (·.responded)) then none
      else some (.ok (setRun s l { r with pending := r.pending ++ [⟨l, peer, sample⟩] }))
  | .respond l =>
    match s.runs[l]? with
    | none => none
    | some r => if r.main ∨ r.responded ∨ r.merging ∨ r.ended then none else some (.ok (setRun s l { r with responded := true }))
  | .merge l peer =>
    match s.runs[l]? with
    | none => none
    | some r =>
      if r.ended ∨ ¬ (r.main ∨ r.responded) then none
      else some (.ok { setRun s l { r with pending := r.pending.filter (fun e => e.peer ≠ peer), merging := true } with
        merged := s.merged ++ r.pending.filter (fun e => e.peer = peer) })
  | .finish l =>
    match s.runs[l]? with
    | none => none
    | some r =>
      if r.ended ∨ ¬ (r.main ∨ r.responded) ∨ r.pending ≠ [] then none
      else match s.reader with
        | .activities _ => if r.activities then some .ub else some (.ok (setRun s l { r with ended := true }))
        | _ => some (.ok (setRun s l { r with ended := true }))
  | .beginCollect =>
    if s.reader = .idle ∧ s.runs.all (fun r => !r.main || r.ended) then some (.ok { s with reader := .peers 0 [] }) else none
  | .readPeer =>
    match s.reader with
    | .peers next found =>
      if next < peers then
        some (.ok { s with reader := .peers (next + 1) (found ++ s.merged.filter (fun e => e.peer = next)) })
      else none
    | _ => none
  | .readActivities =>
    match s.reader with
    | .peers next found => if next = peers then some (.ok { s with reader := .activities found }) else none
    | _ => none
  | .endCollect =>
    match s.reader with
    | .activities found => some (.ok { s with reader := .idle, results := found :: s.results })
    | _ => none

/-- A history.  Code: distbench_engine.cc:876-1049, 1311-1516. -/
def run (peers : Nat) (s : State) : List Op → Option (Outcome State)
  | [] => some (.ok s)
  | op :: rest =>
    match step peers s op with
    | none => none
    | some (.ok s') => run peers s' rest
    | some (.error m) => some (.error m)
    | some .ub => some .ub
    | some .crash => some .crash

end Distbench.Collect
