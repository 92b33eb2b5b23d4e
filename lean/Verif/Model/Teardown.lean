import Verif.Model.Grpc

/-! Model of the destruction of an engine (`~DistBenchEngine`, distbench_engine.cc:113-127) while
requests are still being served by the inline or the handoff server of the gRPC driver
(protocol_driver_grpc.cc:296-330, 579-620).

Not modelled: the polling server (see Model/GrpcServer.lean), and what action lists do (see
Model/ActionList.lean): a list ends, and sends the response before it ends (C31). -/

namespace Distbench.Teardown

/-- The two servers, protocol_driver_grpc.cc:296-330 (`TrafficService`) and 579-620
(`TrafficServiceAsyncCallback`). -/
inductive Kind where
  | inline
  | handoff
  deriving DecidableEq, Repr

/-- Where the handling of an incoming RPC is:
* `waiting`: in `GenericRpc`, before the handler was set (protocol_driver_grpc.cc:314, 604);
* `handling`: in `RpcHandler` (distbench_engine.cc:977-1049);
* `returning`: the response was sent, and the handler has nothing more to do with the engine;
* `listed`: an action list handles it, or will when the thread pool comes to it;
* `answered`: the same, and the response was sent;
* `sleeping`: the pause of a replayed RPC (distbench_engine.cc:1001-1004);
* `silent`: after that pause, in the handoff server: nobody will ever send a response;
* `gone`: the call is over. -/
inductive Place where
  | waiting
  | handling
  | returning
  | listed
  | answered
  | sleeping
  | silent
  | gone
  deriving DecidableEq, Repr

/-- Whether the call is over for gRPC, so that `Shutdown` does not wait for it any more: when
`GenericRpc` has returned (protocol_driver_grpc.cc:306-324), or when it has returned and the response
was sent (protocol_driver_grpc.cc:593-612).  Simplification: in the handoff server, the rest of
`GenericRpc` after it has put the list into the thread pool is left out. -/
def over : Kind → Place → Bool
  | _, .gone => true
  | .handoff, .answered => true
  | _, _ => false

/-- How far the destructor is, distbench_engine.cc:113-127: not called; joining the main thread
(114); shutting down the server for connections (115-118); shutting down the server of the driver
(120); waiting for the detached lists (121-123); shutting down the client (124); done. -/
inductive Phase where
  | alive
  | joining
  | closingSetup
  | closingServer
  | waitingLists
  | closingClient
  | destroyed
  deriving DecidableEq, Repr

/-- The engine: the incoming RPCs, whether the handler was set, whether the main action list is
running, the calls of `SetupConnection` under way, `detached_actionlist_threads_` and the destructor.
Code: distbench_engine.h:380-446. -/
structure Engine where
  calls : List Place := []
  handler : Bool := false
  main : Bool := false
  setups : Nat := 0
  detached : Nat := 0
  phase : Phase := .alive
  deriving DecidableEq, Repr

/-- Whether a step is a new call from the network (protocol_driver_grpc.cc:306, 593;
distbench_engine.cc:94), or something that goes on within the process. -/
inductive Event where
  | newCall
  | other
  deriving DecidableEq, Repr

/-- One step: of the network, of the threads that serve RPCs, of the main thread, or of the
destructor.  Simplifications: nobody calls a method of an engine that is being destroyed; `Shutdown`
of a gRPC server refuses new calls and returns when the calls it had are over; the client has no
pending RPCs when all action lists are over.
Code: distbench_engine.cc:94-127, 703-711, 876-919, 977-1049. -/
inductive Step (k : Kind) : Engine → Event → Engine → Prop
  /-- `ConfigurePeers` sets the handler, distbench_engine.cc:704. -/
  | setHandler {s} : s.phase = .alive → Step k s .other { s with handler := true }
  /-- `RunTraffic` starts the main action list, distbench_engine.cc:895-898. -/
  | startMain {s} : s.phase = .alive → s.main = false → Step k s .other { s with main := true }
  /-- The main action list ends. -/
  | endMain {s} : s.main = true → Step k s .other { s with main := false }
  /-- A peer calls `SetupConnection`, distbench_engine.cc:94. -/
  | setup {s} : s.phase = .alive ∨ s.phase = .joining →
      Step k s .newCall { s with setups := s.setups + 1 }
  /-- `SetupConnection` returns, distbench_engine.cc:103. -/
  | setupDone {s} : s.setups ≠ 0 → Step k s .other { s with setups := s.setups - 1 }
  /-- A request arrives, protocol_driver_grpc.cc:306, 593. -/
  | arrive {s} : s.phase = .alive ∨ s.phase = .joining ∨ s.phase = .closingSetup →
      Step k s .newCall { s with calls := .waiting :: s.calls }
  /-- The handler was set and is called, protocol_driver_grpc.cc:314-316, 604-606. -/
  | enter {s i} : s.calls[i]? = some .waiting → s.handler = true →
      Step k s .other { s with calls := s.calls.set i .handling }
  /-- The handler sends the response itself, distbench_engine.cc:977-1037. -/
  | short {s i} : s.calls[i]? = some .handling →
      Step k s .other { s with calls := s.calls.set i .returning }
  /-- An action list handles the request; with the handoff server it is counted,
  distbench_engine.cc:1039-1048. -/
  | list {s i} : s.calls[i]? = some .handling →
      Step k s .other { s with
        calls := s.calls.set i .listed
        detached := if k = .handoff then s.detached + 1 else s.detached }
  /-- A replayed RPC with a pause, distbench_engine.cc:1001-1004. -/
  | pause {s i} : s.calls[i]? = some .handling →
      Step k s .other { s with calls := s.calls.set i .sleeping }
  /-- The pause is over; the inline server returns what is in the response,
  protocol_driver_grpc.cc:317-320; the handoff server has nothing to return. -/
  | wake {s i} : s.calls[i]? = some .sleeping →
      Step k s .other { s with calls := s.calls.set i (if k = .handoff then .silent else .gone) }
  /-- The action list sends the response. -/
  | respond {s i} : s.calls[i]? = some .listed →
      Step k s .other { s with calls := s.calls.set i .answered }
  /-- The action list ends; with the handoff server it is not counted any more,
  distbench_engine.cc:1040-1047. -/
  | endList {s i} : s.calls[i]? = some .answered →
      Step k s .other { s with
        calls := s.calls.set i .gone
        detached := if k = .handoff then s.detached - 1 else s.detached }
  /-- The call returns, protocol_driver_grpc.cc:320, 611. -/
  | return_ {s i} : s.calls[i]? = some .returning →
      Step k s .other { s with calls := s.calls.set i .gone }
  /-- The destructor is called, distbench_engine.cc:113. -/
  | destroy {s} : s.phase = .alive → Step k s .other { s with phase := .joining }
  /-- The main thread has been joined, distbench_engine.cc:114, 914-919. -/
  | joined {s} : s.phase = .joining → s.main = false → Step k s .other { s with phase := .closingSetup }
  /-- The server for connections was shut down, distbench_engine.cc:115-118. -/
  | setupClosed {s} : s.phase = .closingSetup → s.setups = 0 →
      Step k s .other { s with phase := .closingServer }
  /-- The server of the driver was shut down, distbench_engine.cc:120. -/
  | serverClosed {s} : s.phase = .closingServer → (∀ p ∈ s.calls, over k p = true) →
      Step k s .other { s with phase := .waitingLists }
  /-- No list is running, distbench_engine.cc:121-123. -/
  | listsOver {s} : s.phase = .waitingLists → s.detached = 0 →
      Step k s .other { s with phase := .closingClient }
  /-- The client was shut down and the members are destroyed, distbench_engine.cc:124-127. -/
  | destroyed {s} : s.phase = .closingClient → Step k s .other { s with phase := .destroyed }

/-- The states that can be reached.  Code: distbench_engine.cc:94-127, 703-711, 876-919, 977-1049. -/
inductive Reachable (k : Kind) : Engine → Prop
  | start : Reachable k {}
  | step {s e s'} : Reachable k s → Step k s e s' → Reachable k s'

/-- How things go on from a state, with the steps made.  Code: distbench_engine.cc:113-127. -/
inductive Steps (k : Kind) : Engine → List Event → Engine → Prop
  | done {s} : Steps k s [] s
  | step {s e s' h s''} : Step k s e s' → Steps k s' h s'' → Steps k s (e :: h) s''

end Distbench.Teardown
