import Verif.Model.Basic

/-! The way of a request through the servers of the protocol drivers: from its arrival to the handler
of the engine and back to the client.  gRPC inline (protocol_driver_grpc.cc:296-330), gRPC handoff
(579-620), gRPC polling (684-862), Homa (protocol_driver_homa.cc:294-335, 414-505) and Mercury
(protocol_driver_mercury.cc:148-151, 355-410).

What happens to the objects of the polling server is in Model/GrpcServer.lean, to the buffers of Homa
in Model/Homa.lean, to the destruction of the engine in Model/Teardown.lean. -/

namespace Distbench.Serving

/-- The servers.  Code: protocol_driver_grpc.cc:296, 579, 776, protocol_driver_homa.cc:414,
protocol_driver_mercury.cc:355. -/
inductive Kind where
  | inline
  | handoff
  | polling
  | homa
  | mercury
  deriving DecidableEq, Repr

/-- Where a request is: at the driver, before the handler is called; in the handler of the engine
(distbench_engine.cc:977-1049); in the work that the handler left (run by the driver's thread pool, or
at once by the inline server, protocol_driver_grpc.cc:317-319); over; or forgotten: the driver does
nothing more for it, though it was not answered (protocol_driver_grpc.cc:606-612, 725-730). -/
inductive Phase where
  | waiting
  | handling
  | working
  | over
  | forgotten
  deriving DecidableEq, Repr

/-- What a client gets: success with the response that the engine sent, or with an empty response if
it did not send one; or the error `No rpc handler set.`  Code: protocol_driver_grpc.cc:320-323. -/
inductive Answer where
  | ok (response : Option Nat)
  | unavailable
  deriving DecidableEq, Repr

/-- A request and its `ServerRpcState`, protocol_driver.h:37-60: `sent` is the response given to
`SendResponseIfSet`. -/
structure Call where
  phase : Phase := .waiting
  sent : Option Nat := none
  deriving DecidableEq, Repr

/-- A server.  `made` requests arrived, numbered from 0; `setting`: the assignment to the handler is
going on; `handler`: the handler is not empty; `notified`: `handler_set_`; `shutting`: `ShutdownServer`
was called; `closed`: no further requests are taken; `returned`: `ShutdownServer` has returned;
`handled`: the requests the handler was called with, newest first; `delivered`: what went to clients,
newest first.  Code: protocol_driver_grpc.cc:327-328, 616-618, protocol_driver_homa.h:85-110,
protocol_driver_mercury.h:80-100. -/
structure Server where
  calls : Nat → Call := fun _ => {}
  made : Nat := 0
  setting : Bool := false
  handler : Bool := false
  notified : Bool := false
  shutting : Bool := false
  closed : Bool := false
  returned : Bool := false
  handled : List Nat := []
  delivered : List (Nat × Answer) := []

/-- What happens: a request arrives; `SetHandler` begins to assign the handler; it has done so and
has notified; the driver comes to a request; the engine sends a response; the handler returns and
leaves work to do; the handler, or the work it left, is done; `ShutdownServer` is called; it stops
taking requests; it returns.
Code: protocol_driver_grpc.cc:300-323, 587-612, protocol_driver_homa.cc:232-236, 294-335, 418-493,
protocol_driver_mercury.cc:148-151, 263-271, 405-408. -/
inductive Op where
  | arrive
  | setBegin
  | setEnd
  | take (id : Nat)
  | send (id : Nat) (response : Nat)
  | defer (id : Nat)
  | done (id : Nat)
  | shutdown
  | close
  | return
  deriving DecidableEq, Repr

/-- Changing a request.  Code: protocol_driver.h:37-60. -/
def Server.set (s : Server) (id : Nat) (c : Call) : Server :=
  { s with calls := fun i => if i = id then c else s.calls i }

/-- Whether the driver comes to a request: gRPC and Homa wait for `handler_set_`, Homa leaves its loop
once the shutdown has been flagged, Mercury does not wait.
Code: protocol_driver_grpc.cc:314, 605, 851, protocol_driver_homa.cc:418-424,
protocol_driver_mercury.cc:355-405. -/
def takes (k : Kind) (s : Server) : Bool :=
  match k with
  | .inline | .handoff | .polling => s.notified
  | .homa => s.notified && !s.closed
  | .mercury => !s.closed

/-- The call of the handler.  Reading the handler while it is being assigned is a data race.  Without a
handler, the inline server answers with an error, the handoff and the polling server do nothing, and
for Homa and Mercury calling an empty `std::function` ends the process (`std::bad_function_call`).
Code: protocol_driver_grpc.cc:315-323, 606-612, 725-730, protocol_driver_homa.cc:488,
protocol_driver_mercury.cc:405. -/
def take (k : Kind) (s : Server) (id : Nat) : Outcome Server :=
  if s.setting then .ub
  else if s.handler then
    .ok { s.set id { s.calls id with phase := .handling } with handled := id :: s.handled }
  else
    match k with
    | .inline =>
      .ok { s.set id { s.calls id with phase := .over } with
        delivered := (id, .unavailable) :: s.delivered }
    | .handoff | .polling => .ok (s.set id { s.calls id with phase := .forgotten })
    | .homa | .mercury => .crash

/-- `SendResponseIfSet`: the inline server only stores the response, the others send it.
Code: protocol_driver_grpc.cc:312-313, 600-603, 719-722, protocol_driver_homa.cc:470-486,
protocol_driver_mercury.cc:390-399. -/
def send (k : Kind) (s : Server) (id response : Nat) : Server :=
  let s' := s.set id { s.calls id with sent := some response }
  match k with
  | .inline => s'
  | _ => { s' with delivered := (id, .ok (some response)) :: s'.delivered }

/-- The end of the handler or of the work it left: `GenericRpc` of the inline server returns success,
with whatever the response is.  Code: protocol_driver_grpc.cc:316-320. -/
def finish (k : Kind) (s : Server) (id : Nat) : Server :=
  let s' := s.set id { s.calls id with phase := .over }
  match k with
  | .inline => { s' with delivered := (id, .ok (s.calls id).sent) :: s'.delivered }
  | _ => s'

/-- Whether `ShutdownServer` may return: the gRPC server waits until every call was answered; the
threads of Homa wait for the responses to the requests they took; the thread pool of Mercury waits for
its tasks.  Code: protocol_driver_grpc.cc:386-388, 674-678, 824-836, protocol_driver_homa.cc:502-504,
protocol_driver_mercury.cc:263-271. -/
def mayReturn (k : Kind) (s : Server) : Bool :=
  (List.range s.made).all fun id =>
    match k with
    | .inline | .handoff | .polling => s.delivered.any fun d => d.1 = id
    | .homa => (s.calls id).phase = .waiting || (s.calls id).sent.isSome
    | .mercury => (s.calls id).phase = .waiting || (s.calls id).phase = .over

/-- One step; `none`: it cannot happen now.  The engine sends at most one response (C31, C95), and none
once it is done.  Code: protocol_driver_grpc.cc:296-330, 367-388, 579-620, 668-678, 818-836,
protocol_driver_homa.cc:232-236, 294-335, 414-505, protocol_driver_mercury.cc:148-151, 263-271,
355-410. -/
def step (k : Kind) (s : Server) : Op → Option (Outcome Server)
  | .arrive => if s.closed then none else some (.ok { s with made := s.made + 1 })
  | .setBegin => if s.setting || s.shutting then none else some (.ok { s with setting := true })
  | .setEnd =>
    if s.setting then some (.ok { s with setting := false, handler := true, notified := true })
    else none
  | .take id =>
    if id < s.made ∧ (s.calls id).phase = .waiting ∧ takes k s ∧ s.returned = false then
      some (take k s id)
    else none
  | .send id response =>
    if ((s.calls id).phase = .handling ∨ (s.calls id).phase = .working) ∧ (s.calls id).sent = none then
      some (.ok (send k s id response))
    else none
  | .defer id =>
    if (s.calls id).phase = .handling then
      some (.ok (s.set id { s.calls id with phase := .working }))
    else none
  | .done id =>
    if (s.calls id).phase = .handling ∨ (s.calls id).phase = .working then
      some (.ok (finish k s id))
    else none
  | .shutdown =>
    if s.shutting || s.setting then none
    else
      match k with
      | .polling | .homa => some (.ok { s with shutting := true, notified := true })
      | _ => some (.ok { s with shutting := true })
  | .close => if s.shutting && !s.closed then some (.ok { s with closed := true }) else none
  | .return => if s.closed && !s.returned && mayReturn k s then some (.ok { s with returned := true }) else none

/-- A run; `none` if it is not possible, and the rest of the steps is not looked at after a failure.
Code: protocol_driver_grpc.cc:296-862, protocol_driver_homa.cc:294-505,
protocol_driver_mercury.cc:148-410. -/
def run (k : Kind) (s : Server) : List Op → Option (Outcome Server)
  | [] => some (.ok s)
  | op :: ops =>
    match step k s op with
    | none => none
    | some (.ok s') => run k s' ops
    | some o => some o

end Distbench.Serving
