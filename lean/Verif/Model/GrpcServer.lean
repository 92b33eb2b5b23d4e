import Verif.Model.Basic

/-! The polling server of the gRPC driver (`GrpcPollingServerDriver` and `PollingRpcHandlerFsm`,
protocol_driver_grpc.cc 684-862): the objects that handle one RPC each, their reference counts, the
thread that takes tags from the completion queue, and the shutdown. -/

namespace Distbench.GrpcServer

/-- `CallState`, protocol_driver_grpc.cc 755-759. -/
inductive CallState where
  | awaiting | processing | finished
  deriving DecidableEq, Repr

/-- The operation that gRPC has in hand for an object (its tag): none; the wait for a request
(737-738); the sending of the response (721); or completed, the tag being in the completion queue
with this `ok`.  Code: protocol_driver_grpc.cc:721, 737-738. -/
inductive Pending where
  | idle | requested | sending | tag (ok : Bool)
  deriving DecidableEq, Repr

/-- What the engine does with the RPC state it was handed (726-729): nothing (not handed over, or
freed); working on it; response sent but state not freed.  Code: protocol_driver_grpc.cc:726-729. -/
inductive Job where
  | none | working | answered
  deriving DecidableEq, Repr

/-- A `PollingRpcHandlerFsm`, protocol_driver_grpc.cc 687-772; `alive`: not deleted. -/
structure Fsm where
  alive : Bool := false
  refs : Int := 0
  state : CallState := .awaiting
  pending : Pending := .idle
  job : Job := .none
  deriving DecidableEq, Repr

/-- What is seen outside: the handler is called with the request that object `f` received; the
response to it is given to gRPC.  Code: protocol_driver_grpc.cc:684-774. -/
inductive Event where
  | handled (f : Nat)
  | answered (f : Nat)
  deriving DecidableEq, Repr

/-- The server.  `made` objects were created, numbered from 0; `busy`: the thread is in `HandleRpc`
of this object; `closing`: `Shutdown` of the gRPC server was called (827); `queueShut`:
`server_cq_->Shutdown()` was called (831); `exited`: the thread has ended (852).
Code: protocol_driver_grpc.cc:776-862. -/
structure Server where
  fsm : Nat → Fsm := fun _ => {}
  made : Nat := 0
  busy : Option Nat := none
  postNew : Bool := true
  detected : Bool := false
  closing : Bool := false
  queueShut : Bool := false
  exited : Bool := false
  log : List Event := []

/-- Writing one object.  Code: protocol_driver_grpc.cc:684-774. -/
def Server.set (s : Server) (f : Nat) (x : Fsm) : Server :=
  { s with fsm := fun g => if g = f then x else s.fsm g }

/-- An access to an object: undefined once it was deleted.  Code: protocol_driver_grpc.cc:684-774. -/
def access (s : Server) (f : Nat) : Outcome Fsm :=
  if (s.fsm f).alive then .ok (s.fsm f) else .ub

/-- Giving gRPC an operation with the object as tag.  gRPC does not define a second one while the
first is pending, nor one on a completion queue that was shut down.
Code: protocol_driver_grpc.cc:721, 737-738. -/
def submit (s : Server) (f : Nat) (p : Pending) : Outcome Server :=
  (access s f).bind fun x =>
    if x.pending = .idle ∧ s.queueShut = false then .ok (s.set f { x with pending := p }) else .ub

/-- `new PollingRpcHandlerFsm`: constructor and its call of `RpcHandlerFsm`,
protocol_driver_grpc.cc 689-701, 734-738, 751. -/
def create (s : Server) : Outcome Server :=
  let s' := { s.set s.made { alive := true, refs := 1 } with made := s.made + 1 }
  (submit s' s.made .requested).bind fun s'' =>
    (access s'' s.made).bind fun x => .ok (s''.set s.made { x with state := .processing })

/-- `DecRefAndMaybeDelete`, protocol_driver_grpc.cc 709-714. -/
def decRef (s : Server) (f : Nat) : Outcome Server :=
  (access s f).bind fun x =>
    .ok (s.set f { x with refs := x.refs - 1, alive := x.refs ≠ 1 })

/-- `HandleRpc` up to the call of the handler, protocol_driver_grpc.cc 716-726.  Simplification: a
handler is set (it is, unless the server is shut down before `SetHandler`). -/
def handleRpc (s : Server) (f : Nat) : Outcome Server :=
  (access s f).bind fun x =>
    .ok { s.set f { x with refs := x.refs + 1, job := .working } with
      busy := some f, log := s.log ++ [.handled f] }

/-- `RpcHandlerFsm` called from the thread, protocol_driver_grpc.cc 733-750, up to the return of
the handler; the assignment of line 751 is the step `settle`. -/
def rpcHandlerFsm (s : Server) (f : Nat) : Outcome Server :=
  (access s f).bind fun x =>
    match x.state with
    | .awaiting => (submit s f .requested).bind fun s' =>
        (access s' f).bind fun x' => .ok (s'.set f { x' with state := .processing })
    | .processing => (if s.postNew then create s else .ok s).bind fun s' => handleRpc s' f
    | .finished => decRef s f

/-- What happens: a request arrives for a waiting object; gRPC refuses a waiting object, because the
server is closing; the thread takes a tag; the handler returns to the thread; the engine sends the
response; gRPC has sent it (or not: `ok = false`); the engine frees the RPC state; `Shutdown` of
the server is called; `Shutdown` and the wait for the notification return, and the queue is shut
down; the thread ends.  Code: protocol_driver_grpc.cc:684-862. -/
inductive Op where
  | arrive (f : Nat)
  | refuse (f : Nat)
  | take (f : Nat)
  | settle
  | send (f : Nat)
  | sent (f : Nat) (ok : Bool)
  | free (f : Nat)
  | close
  | shutQueue
  | exit
  deriving DecidableEq, Repr

/-- No call is still to be answered: what `Shutdown` of the gRPC server waits for.
Code: protocol_driver_grpc.cc:824-836. -/
def callsOver (s : Server) : Bool :=
  (List.range s.made).all fun f =>
    decide ((s.fsm f).pending ≠ .sending ∧ (s.fsm f).job ≠ .working ∧
      ¬ ((s.fsm f).pending = .tag true ∧ (s.fsm f).state = .processing ∧ (s.fsm f).job = .none ∧
        s.busy ≠ some f))

/-- No tag is in the queue and no operation is in hand: `Next` returns false after the queue was
shut down.  Code: protocol_driver_grpc.cc:842-862. -/
def drained (s : Server) : Bool :=
  (List.range s.made).all fun f => decide ((s.fsm f).pending = .idle)

/-- One step; `none`: it cannot happen now.  The thread is that of `HandleRpcs`,
protocol_driver_grpc.cc 852-861; `send` and `free` are `SendResponseIfSet` and `FreeStateIfSet` with
the functions of lines 719-724, which the engine calls once each in this order; `close` and
`shutQueue` are `ShutdownServer`, 824-836. -/
def step (s : Server) : Op → Option (Outcome Server)
  | .arrive f =>
    if (s.fsm f).pending = .requested ∧ s.closing = false then
      some (.ok (s.set f { s.fsm f with pending := .tag true }))
    else none
  | .refuse f =>
    if (s.fsm f).pending = .requested ∧ s.closing = true then
      some (.ok (s.set f { s.fsm f with pending := .tag false }))
    else none
  | .take f =>
    if s.busy = none ∧ s.exited = false then
      match (s.fsm f).pending with
      | .tag ok =>
        let s' := s.set f { s.fsm f with pending := .idle }
        if ok then some (rpcHandlerFsm s' f)
        else some (decRef { s' with detected := true, postNew := false } f)
      | _ => none
    else none
  | .settle =>
    match s.busy with
    | some f => some ((access s f).bind fun x =>
        .ok { s.set f { x with state := .finished } with busy := none })
    | none => none
  | .send f =>
    if (s.fsm f).job = .working then
      some ((submit s f .sending).bind fun s' => (access s' f).bind fun x =>
        .ok { s'.set f { x with job := .answered } with log := s'.log ++ [.answered f] })
    else none
  | .sent f ok =>
    if (s.fsm f).pending = .sending then
      some (.ok (s.set f { s.fsm f with pending := .tag ok }))
    else none
  | .free f =>
    if (s.fsm f).job = .answered then
      some (decRef (s.set f { s.fsm f with job := .none }) f)
    else none
  | .close => if s.closing then none else some (.ok { s with closing := true })
  | .shutQueue =>
    if s.closing ∧ s.detected ∧ callsOver s ∧ s.queueShut = false then
      some (.ok { s with queueShut := true })
    else none
  | .exit =>
    if s.queueShut ∧ s.busy = none ∧ drained s ∧ s.exited = false then
      some (.ok { s with exited := true })
    else none

/-- A sequence of steps, up to the first that does not go well; `none`: it cannot happen.
Code: protocol_driver_grpc.cc:684-862. -/
def run (s : Server) : List Op → Option (Outcome Server)
  | [] => some (.ok s)
  | op :: ops =>
    match step s op with
    | some (.ok s') => run s' ops
    | some (.error e) => some (.error e)
    | some .ub => some .ub
    | some .crash => some .crash
    | none => none

/-- The server after the start of `HandleRpcs`, protocol_driver_grpc.cc 843-850. -/
def start : Outcome Server := create {}

end Distbench.GrpcServer
