import Verif.Model.Sequencer

/-! Model of how a new request cancels the traffic of the running one
(distbench_test_sequencer.cc:139-178, 525-634; distbench_test_sequencer.h:84-100), and of shutting
down (distbench_test_sequencer.cc:636-702). -/

namespace Distbench.Cancel

/-! ### cancelling traffic -/

/-- What happens at the interface of the test sequencer.
Code: distbench_test_sequencer.cc:139-178, 373-634. -/
inductive Event where
  /-- The exclusive sections of a test (`PlaceServices`, `ConfigureNodes`, `IntroducePeers`) are
  over. -/
  | configured
  /-- `RunTraffic` is sent to a node. -/
  | runSent (node : Nat)
  /-- A node has answered `RunTraffic`. -/
  | runAnswered (node : Nat)
  /-- The traffic of the test is over, and its results are collected or it failed. -/
  | trafficEnded
  /-- Request `i` begins to cancel. -/
  | cancelBegins (i : Nat)
  /-- `CancelTraffic` is sent to a node on behalf of request `i`. -/
  | cancelSent (i : Nat) (node : Nat)
  /-- Request `i` has had all answers to its `CancelTraffic` RPCs. -/
  | cancelReturns (i : Nat)
  /-- A step that nobody else can see. -/
  | silent
  deriving DecidableEq, Repr

/-- Where the running test is.  `idle` is outside a test, `ready` between `IntroducePeers` and
`RunTraffic`, `sending todo marked pending` inside `RunTraffic`: `todo` are the nodes not yet
reached by the loop of distbench_test_sequencer.cc:541-554, `marked` the one between lines 549 and
552, `pending` those that have not answered; `collecting left` from line 592. -/
inductive Phase where
  | idle
  | ready
  | sending (nodes todo : List Nat) (marked : Option Nat) (pending : List Nat)
  | collecting (left : List Nat)
  deriving DecidableEq, Repr

/-- A call of `CancelTraffic`: the nodes still to be told, and those that were told and have not
answered.  Code: distbench_test_sequencer.cc:139-178. -/
structure Call where
  id : Nat
  todo : List Nat
  waiting : List Nat
  deriving DecidableEq, Repr

/-- `active_node_indices_` (distbench_test_sequencer.h:102), the running test, and the calls of
`CancelTraffic` in progress.  Simplification: at most one test runs at a time (see C44). -/
structure State where
  active : List Nat := []
  phase : Phase := .idle
  calls : List Call := []
  deriving DecidableEq, Repr

/-- `active_node_indices_.insert(i)`, distbench_test_sequencer.h:86-89. -/
def markActive (active : List Nat) (node : Nat) : List Nat :=
  if node ∈ active then active else active ++ [node]

/-- `active_node_indices_.erase(i)`, distbench_test_sequencer.h:91-94. -/
def markInactive (active : List Nat) (node : Nat) : List Nat := active.filter (· ≠ node)

/-- One step.  `PlaceServices`, `ConfigureNodes` and `IntroducePeers` hold `mutex_` exclusively
(distbench_test_sequencer.cc:227, 418, 481) and are one step, `configure`, which therefore needs
that no call of `CancelTraffic` holds it (line 140).  `RunTraffic` and `CancelTraffic` hold it
shared.  Simplifications: a request that cancels between two of the exclusive sections is treated as
if it came before them; registrations, which need the lock exclusively too, only delay the others;
the sequencer is not shutting down. -/
inductive Step : State → Event → State → Prop
  /-- distbench_test_sequencer.cc:380-394. -/
  | configure {s} : s.phase = .idle → s.calls = [] →
      Step s .configured { s with phase := .ready }
  /-- A test that is not run after all, for example because its timeout cannot be read,
  distbench_test_sequencer.cc:396-397. -/
  | giveUp {s} : s.phase = .ready → Step s .trafficEnded { s with phase := .idle }
  /-- distbench_test_sequencer.cc:525-540. -/
  | enter {s} (nodes : List Nat) : s.phase = .ready → nodes.Nodup →
      Step s .silent { s with phase := .sending nodes nodes none [] }
  /-- `MarkNodeActive`, distbench_test_sequencer.cc:549. -/
  | mark {s nodes node todo pending} : s.phase = .sending nodes (node :: todo) none pending →
      Step s .silent { s with active := markActive s.active node,
                              phase := .sending nodes todo (some node) pending }
  /-- `AsyncRunTraffic`, distbench_test_sequencer.cc:550-553. -/
  | send {s nodes todo node pending} : s.phase = .sending nodes todo (some node) pending →
      Step s (.runSent node) { s with phase := .sending nodes todo none (node :: pending) }
  /-- A node answers `RunTraffic`, or its deadline passes; distbench_test_sequencer.cc:555-569. -/
  | answer {s nodes todo marked pending node} : s.phase = .sending nodes todo marked pending →
      node ∈ pending →
      Step s (.runAnswered node)
        { s with phase := .sending nodes todo marked (pending.filter (· ≠ node)) }
  /-- Some node failed, distbench_test_sequencer.cc:571-574: the nodes stay marked. -/
  | fail {s nodes} : s.phase = .sending nodes [] none [] →
      Step s .trafficEnded { s with phase := .idle }
  /-- distbench_test_sequencer.cc:592-607. -/
  | collect {s nodes} : s.phase = .sending nodes [] none [] →
      Step s .trafficEnded { s with phase := .collecting nodes }
  /-- `MarkNodeInactive`, distbench_test_sequencer.cc:622. -/
  | collected {s left node} : s.phase = .collecting left → node ∈ left →
      Step s .silent { s with active := markInactive s.active node,
                              phase := .collecting (left.filter (· ≠ node)) }
  /-- distbench_test_sequencer.cc:624-634. -/
  | finish {s} : s.phase = .collecting [] → Step s .silent { s with phase := .idle }
  /-- A new request calls `CancelTraffic` and reads the active nodes,
  distbench_test_sequencer.cc:106, 140-153. -/
  | cancel {s} (i : Nat) : (∀ c ∈ s.calls, c.id ≠ i) →
      Step s (.cancelBegins i) { s with calls := s.calls ++ [⟨i, s.active, []⟩] }
  /-- `AsyncCancelTraffic`, distbench_test_sequencer.cc:154-163. -/
  | tell {s before after i node todo waiting} :
      s.calls = before ++ ⟨i, node :: todo, waiting⟩ :: after →
      Step s (.cancelSent i node)
        { s with calls := before ++ ⟨i, todo, node :: waiting⟩ :: after }
  /-- A node answers `CancelTraffic`, distbench_test_sequencer.cc:169-175. -/
  | told {s before after i node waiting} : s.calls = before ++ ⟨i, [], waiting⟩ :: after →
      node ∈ waiting →
      Step s .silent { s with active := markInactive s.active node,
                              calls := before ++ ⟨i, [], waiting.filter (· ≠ node)⟩ :: after }
  /-- `CancelTraffic` returns, distbench_test_sequencer.cc:178. -/
  | cancelled {s before after i} : s.calls = before ++ ⟨i, [], []⟩ :: after →
      Step s (.cancelReturns i) { s with calls := before ++ after }

/-- The histories of the test sequencer, from its start.
Code: distbench_test_sequencer.cc:97-178, 373-634. -/
inductive Run : List Event → State → Prop
  | start : Run [] {}
  | step {h s e s'} : Run h s → Step s e s' → Run (h ++ [e]) s'

/-! ### shutting down -/

/-- The nodes to which `TestSequencer::Shutdown` sends `ShutdownNode`,
distbench_test_sequencer.cc:651-664. -/
def shutdownTargets (s : Sequencer.Registry) : List Nat :=
  (List.range s.nodes.length).filter fun i =>
    match s.nodes[i]? with
    | some slot => !slot.pending
    | none => false

/-- The end of a test sequencer that was asked to shut down: `Wait` calls `Shutdown`
(distbench_test_sequencer.cc:685-691), whose loop sees the registry `first`; nodes can register
until its server is down (line 681); the destructor calls `Shutdown` again (lines 693-694) and sees
`last`.  The result is what is sent, in order. -/
def shutdownsSent (first last : Sequencer.Registry) : List Nat :=
  shutdownTargets first ++ shutdownTargets last

end Distbench.Cancel
