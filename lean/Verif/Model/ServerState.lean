import Verif.Model.Handler
import Verif.Model.Replay

/-! `ServerRpcState`, protocol_driver.h:37-60 and protocol_driver.cc:31-65: the functions that send the
response to an RPC and free what was allocated for it, as they are set by the servers of the protocol
drivers and by the engine itself, in debug and in release builds. -/

namespace Distbench.ServerState

/-- Who made the state: the inline gRPC server (protocol_driver_grpc.cc:308-313), the handoff server
(597-604), the polling server (716-724), Homa (protocol_driver_homa.cc:463-486), Mercury
(protocol_driver_mercury.cc:389-403); `RunTraffic` for the list of the service itself
(distbench_engine.cc:885-893); `InitiateAction` for a trace (1804-1808) or for a list (1848-1852). -/
inductive Maker where
  | inline
  | handoff
  | polling
  | homa
  | mercury
  | traffic
  | trace
  | list
  deriving DecidableEq, Repr

/-- A statement of a free function.  `deleteCaptured`: `delete fake_request`, by a captured pointer;
`deleteRequest`: `delete rpc_state->request`; `deleteState`: `delete rpc_state`; `decRef`:
`DecRefAndMaybeDelete()`.  Code: distbench_engine.cc:890-893, 1807-1808,
protocol_driver_grpc.cc:604, 724, protocol_driver_homa.cc:465-468, protocol_driver_mercury.cc:400-403. -/
inductive Stmt where
  | deleteCaptured
  | deleteRequest
  | deleteState
  | decRef
  deriving DecidableEq, Repr

/-- What one of the two `std::function`s of a state is: empty, the function that was set, or the one
that debug builds put in its place, which ends the process.  Code: protocol_driver.cc:40-43, 60-61. -/
inductive Slot where
  | empty
  | set
  | fatal
  deriving DecidableEq, Repr

/-- A state.  `alive`: the state exists; `request`: its request was allocated for it and exists;
`refs`: the references to the object of the polling server that holds the state; `sends`, `frees`: its
two functions; `sent`: how many responses were sent.
Code: protocol_driver.h:37-60, protocol_driver_grpc.cc:684-775. -/
structure State where
  alive : Bool := true
  request : Bool := false
  refs : Nat := 0
  sends : Slot := .empty
  frees : Slot := .empty
  sent : Nat := 0
  deriving DecidableEq, Repr

/-- Whether a function to send the response is set: not by the engine.
Code: protocol_driver_grpc.cc:312, 600, 719, protocol_driver_homa.cc:469,
protocol_driver_mercury.cc:390; distbench_engine.cc:887-893, 1804-1808, 1848-1852. -/
def Maker.sends : Maker → Bool
  | .inline | .handoff | .polling | .homa | .mercury => true
  | .traffic | .trace | .list => false

/-- The function that frees the state; `none`: not set, the state of the inline server is a local
variable.  Code: protocol_driver_grpc.cc:308, 604, 724, protocol_driver_homa.cc:465-468,
protocol_driver_mercury.cc:400-403, distbench_engine.cc:890-893, 1807-1808, 1851-1852. -/
def Maker.frees : Maker → Option (List Stmt)
  | .inline => none
  | .handoff => some [.deleteState]
  | .polling => some [.decRef]
  | .homa => some [.deleteRequest, .deleteState]
  | .mercury => some [.deleteRequest, .deleteState]
  | .traffic => some [.deleteCaptured, .deleteState]
  | .trace => some [.deleteState]
  | .list => some [.deleteState]

/-- Whether the request is allocated for the state, by itself: those of gRPC belong to gRPC or to the
object of the call, those of nested lists and traces are shared pointers.
Code: protocol_driver_homa.cc:459, protocol_driver_mercury.cc:374, distbench_engine.cc:885. -/
def Maker.allocates : Maker → Bool
  | .homa | .mercury | .traffic => true
  | _ => false

/-- The state as it is handed to the handler or to the list.  The polling server holds a reference of
its own until the response was sent, and one for the handler (protocol_driver_grpc.cc:723).
Code: as of `Maker`: protocol_driver_grpc.cc:308-313, 597-604, 716-724,
protocol_driver_homa.cc:463-486, protocol_driver_mercury.cc:389-403, distbench_engine.cc:885-893. -/
def Maker.make (k : Maker) : State :=
  { request := k.allocates
    refs := if k = .polling then 2 else 0
    sends := if k.sends then .set else .empty
    frees := if k.frees.isSome then .set else .empty }

/-- `DecRefAndMaybeDelete`, protocol_driver_grpc.cc:709-714. -/
def decRef (s : State) : Outcome State :=
  match s.refs with
  | 0 => .ub
  | 1 => .ok { s with refs := 0, alive := false }
  | n + 2 => .ok { s with refs := n + 1 }

/-- One statement of a free function; `captures`: the variables that the function captured exist.
Deleting what does not exist, and reading a captured variable or a member that is gone, is undefined.
Code: distbench_engine.cc:890-893, 1807-1808, protocol_driver_grpc.cc:604, 709-724,
protocol_driver_homa.cc:465-468, protocol_driver_mercury.cc:400-403. -/
def exec (captures : Bool) (s : State) : Stmt → Outcome State
  | .deleteCaptured =>
    if captures && s.request then .ok { s with request := false } else .ub
  | .deleteRequest =>
    if captures && s.alive && s.request then .ok { s with request := false } else .ub
  | .deleteState => if captures && s.alive then .ok { s with alive := false } else .ub
  | .decRef => if captures && s.alive then decRef s else .ub

/-- The statements of a free function, one after the other.  In a debug build the function was moved
to a local variable before it is called, so that what it captured outlives the state; in a release
build it is called where it is, as a member of the state.  Code: protocol_driver.cc:55-65. -/
def execAll (debug : Bool) : State → List Stmt → Outcome State
  | s, [] => .ok s
  | s, x :: xs => (exec (debug || s.alive) s x).bind fun s' => execAll debug s' xs

/-- What is done with a state: `SendResponseIfSet`; `FreeStateIfSet`; the polling server is told that
the response it sent has gone out, and gives up its reference.
Code: protocol_driver.cc:36-48, 55-65, protocol_driver_grpc.cc:750-752. -/
inductive Op where
  | send
  | free
  | gone
  deriving DecidableEq, Repr

/-- `SendResponseIfSet`, protocol_driver.cc:36-48.  What the functions do to send a response is in
Model/Serving.lean: here it is counted. -/
def send (debug : Bool) (s : State) : Outcome State :=
  if s.alive then
    match s.sends with
    | .empty => .ok s
    | .set => .ok { s with sends := if debug then .fatal else .set, sent := s.sent + 1 }
    | .fatal => .crash
  else .ub

/-- `FreeStateIfSet`, protocol_driver.cc:55-65. -/
def free (debug : Bool) (k : Maker) (s : State) : Outcome State :=
  if s.alive then
    match s.frees with
    | .empty => .ok s
    | .set =>
      execAll debug { s with frees := if debug then .fatal else .set } (k.frees.getD [])
    | .fatal => .crash
  else .ub

/-- One operation.  Code: protocol_driver.cc:36-65, protocol_driver_grpc.cc:750-752. -/
def step (debug : Bool) (k : Maker) (s : State) : Op → Outcome State
  | .send => send debug s
  | .free => free debug k s
  | .gone => decRef s

/-- Operations one after the other.  Code: protocol_driver.cc:36-65. -/
def run (debug : Bool) (k : Maker) : State → List Op → Outcome State
  | s, [] => .ok s
  | s, op :: ops => (step debug k s op).bind fun s' => run debug k s' ops

/-- What the handler of the engine does with a state, distbench_engine.cc:977-1049. -/
def ofEffect : Handler.Effect → Op
  | .respond _ => .send
  | .free => .free

/-- How many samples the log of a trace has, distbench_engine.cc:1173. -/
def samples (log : List Replay.Event) : Nat :=
  log.countP fun x => match x with | .sampled .. => true | _ => false

/-- What `InitiateAction` does with the state it made for a trace, once the trace is over: it is freed
only if the log has samples.  Code: distbench_engine.cc:1812-1836. -/
def ofTrace (log : List Replay.Event) : List Op := if samples log = 0 then [] else [.free]

end Distbench.ServerState
