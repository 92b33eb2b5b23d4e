import Verif.Model.Services
import Verif.Model.Threadpool

/-! The gRPC protocol driver (protocol_driver_grpc.cc): which client and server it uses, the target
text of a channel, and the clients.  The polling server is in Model/GrpcServer.lean. -/

namespace Distbench.Grpc
open Services

/-! ### choice of client and server -/

/-- The part of `ProtocolDriverOptions` (traffic_config.proto:242-251) that the driver reads here; absent
texts read as `[]`. -/
structure Options where
  name : Str := []
  protocol : Str := []
  serverSettings : List NamedSetting := []
  clientSettings : List NamedSetting := []
  deriving DecidableEq, Repr

/-- The two classes of client, protocol_driver_grpc.cc 404-409. -/
inductive ClientKind where
  | polling | callback
  deriving DecidableEq, Repr

/-- The three classes of server, protocol_driver_grpc.cc 421-437. -/
inductive ServerKind where
  | inline | handoff | polling
  deriving DecidableEq, Repr

/-- `is_async`, protocol_driver_grpc.cc 400. -/
def isAsync (o : Options) : Bool := o.name = "grpc_async".toList

/-- The client of `ProtocolDriverGrpc::Initialize`, protocol_driver_grpc.cc 400-413. -/
def clientKind (o : Options) : Outcome ClientKind :=
  let t := getNamedSettingString o.clientSettings "client_type".toList
    (if isAsync o then "callback".toList else "polling".toList)
  if t = "polling".toList then .ok .polling
  else if t = "callback".toList then .ok .callback
  else .error "Invalid GRPC client_type"

/-- The pool that the polling and the handoff server make, protocol_driver_grpc.cc 428-435 and
634-642; `cpus` is the number of processors. -/
def serverPool (cpus : Int) (o : Options) : Outcome Threadpool.Pool :=
  Threadpool.createThreadpool (getNamedSettingString o.serverSettings "threadpool_type".toList [])
    (getNamedSettingInt64 o.serverSettings "threadpool_size".toList cpus)

/-- The server of `ProtocolDriverGrpc::Initialize`, protocol_driver_grpc.cc 418-440, together with
the pool that `GrpcHandoffServerDriver::Initialize` makes. -/
def serverKind (cpus : Int) (o : Options) : Outcome ServerKind :=
  let t := getNamedSettingString o.serverSettings "server_type".toList
    (if isAsync o then "handoff".toList else "inline".toList)
  if t = "inline".toList then .ok .inline
  else if t = "handoff".toList then (serverPool cpus o).bind fun _ => .ok .handoff
  else if t = "polling".toList then (serverPool cpus o).bind fun _ => .ok .polling
  else .error "Invalid GRPC server_type"

/-- `CreateServerCreds` with the transport setting, protocol_driver_grpc.cc 78-95, 338-339,
347-350; `homa`: whether the homa transport was compiled in. -/
def transport (homa : Bool) (o : Options) : Outcome Unit :=
  let t := getNamedSettingString o.serverSettings "transport".toList "tcp".toList
  if t = "homa".toList then (if homa then .ok () else .error "Homa transport not compiled in")
  else if t = "tcp".toList then .ok ()
  else .error "unknown transport: "

/-- `ProtocolDriverGrpc::Initialize`, protocol_driver_grpc.cc 397-442.  Simplification: finding the
address of the device and starting the gRPC server succeed. -/
def initDriver (homa : Bool) (cpus : Int) (o : Options) : Outcome (ClientKind × ServerKind) :=
  (clientKind o).bind fun c =>
    (serverKind cpus o).bind fun s =>
      (transport homa o).bind fun _ => .ok (c, s)

/-! ### targets of channels -/

/-- `AddGrpcProtocol`, protocol_driver_grpc.cc 44-55. -/
def addGrpcProtocol : Str → Str
  | [] => []
  | c :: s => (if c = '[' then "ipv6:".toList else "ipv4:".toList) ++ c :: s

/-- The loop that joins the addresses, protocol_driver_grpc.cc 159-168. -/
def joinAddresses (acc : Str) : List Str → Str
  | [] => acc
  | a :: rest => joinAddresses ((if acc = [] then acc else acc ++ [',']) ++ a) rest

/-- The target of a multi-server channel, protocol_driver_grpc.cc 159-174. -/
def channelTarget (addresses : List Str) : Str := addGrpcProtocol (joinAddresses [] addresses)

/-! ### channel arguments of the server -/

/-- A channel argument: a text or a C++ `int`, the two overloads of
`grpc::MakeChannelArgumentOption` that `AddChannelArgument` chooses from
(distbench_utils.cc 194, 198). -/
inductive Argument where
  | text (s : Str)
  | int (n : Int)
  deriving DecidableEq, Repr

/-- The conversion of `int64_t` to `int` in the call of distbench_utils.cc 198 (C++20: modulo
2^32). -/
def toInt32 (n : Int) : Int := (n + 2 ^ 31) % 2 ^ 32 - 2 ^ 31

/-- `ApplyServerSettingsToGrpcBuilder`, distbench_utils.cc 185-205. -/
def serverArguments : List NamedSetting → List (Str × Argument)
  | [] => []
  | s :: rest =>
    match s.name, s.stringValue, s.int64Value with
    | none, _, _ => serverArguments rest
    | some n, some v, _ => (n, .text v) :: serverArguments rest
    | some n, none, some v => (n, .int (toInt32 v)) :: serverArguments rest
    | some _, none, none => serverArguments rest

/-! ### the clients -/

/-- A request, as far as the sample of the RPC reads it (distbench_engine.cc 1746-1750). -/
structure Request where
  size : Nat
  warmup : Bool
  deriving DecidableEq, Repr

/-- A response: its error message and everything else.
Code: protocol_driver_grpc.cc:199-277, 534-568; distbench.proto. -/
structure Response where
  body : Nat := 0
  error : Str := []
  deriving DecidableEq, Repr

/-- `ClientRpcState`, protocol_driver.h 28-35, without the times.  `request = none` is a message
that was moved from, whose contents are unspecified; `success = none` is not initialised. -/
structure Caller where
  request : Option Request := none
  response : Response := {}
  success : Option Bool := none
  deriving DecidableEq, Repr

/-- How gRPC ends a call: with a response, or with an error status and its message.
Code: protocol_driver_grpc.cc:199-277, 534-568. -/
inductive Ending where
  | response (r : Response)
  | failure (message : Str)
  deriving DecidableEq, Repr

/-- Where an RPC goes: `InitiateRpc` or `InitiateRpcToMultiServerChannel`, with its index.
Code: protocol_driver_grpc.cc:183-249, 534-568. -/
inductive Target where
  | peer (i : Int)
  | channel (i : Int)
  deriving DecidableEq, Repr

/-- `PendingRpc`, protocol_driver_grpc.cc 140-148.  `id` stands for its address, `caller` for the
`ClientRpcState*`. -/
structure Call where
  id : Nat
  caller : Nat
  request : Request
  deriving DecidableEq, Repr

/-- A client driver and the RPCs it has: `peers` and `channels` are the stubs, `false` for a null
one; `pending` is `pending_rpcs_`; then the calls in progress, those that gRPC has ended, the
numbers of those whose done callback is running, and the states of the callers.
Code: protocol_driver_grpc.h; protocol_driver_grpc.cc:99-277, 519-577. -/
structure Client where
  peers : List Bool
  channels : List Bool
  pending : Int := 0
  calls : List Call := []
  ended : List (Call × Ending) := []
  running : List Nat := []
  callers : Nat → Caller := fun _ => {}
  next : Nat := 0
  stopped : Bool := false

/-- What happens: the engine starts an RPC with this request in the caller's state; gRPC ends a
call; the driver deals with an ended call up to the call of the done callback; the callback
returns; `ShutdownClient` returns.  Code: protocol_driver_grpc.cc:183-294, 534-577. -/
inductive Op where
  | start (target : Target) (caller : Nat) (request : Request)
  | finish (id : Nat) (e : Ending)
  | callback (id : Nat)
  | returned (id : Nat)
  | shutdown
  deriving DecidableEq, Repr

/-- What the driver writes into the caller's state, protocol_driver_grpc.cc 214-222, 260-269,
549-557. -/
def deliver (c : Caller) (request : Request) : Ending → Caller
  | .response r => { request := some request, response := r, success := some true }
  | .failure m => { c with response := { c.response with error := m }, success := some false }

/-- A stub of a list: a failed CHECK outside the list, undefined for a null one.
Code: protocol_driver_grpc.cc:183-249, 534-568. -/
def stub (l : List Bool) (i : Int) : Outcome Unit :=
  if i < 0 then .crash
  else
    match l[i.toNat]? with
    | none => .crash
    | some b => if b then .ok () else .ub

/-- The checks and the use of the stub of an RPC, protocol_driver_grpc.cc 186-187, 194, 202-203,
230, 238-239, 246, 537-538, 565.  After `ShutdownClient` the polling client's completion queue is
shut down, and gRPC does not define a call that uses it. -/
def useTarget (k : ClientKind) (c : Client) : Target → Outcome Unit
  | .peer i => stub c.peers i
  | .channel i =>
    (stub c.channels i).bind fun _ => if k = .polling ∧ c.stopped then .ub else .ok ()

/-- One step of a client; `none`: it cannot happen now.  The engine starts no RPC with a state that
the driver still uses.  The polling client runs callbacks one at a time, in its completion thread
(protocol_driver_grpc.cc 251-277); the callback client in any number of threads (211-228, 546-563).
`ShutdownClient` (281-292, 572-576) returns after it has read 0 from `pending_rpcs_`; it clears the
stubs of the peers, not those of the channels. -/
def step (k : ClientKind) (c : Client) : Op → Option (Outcome Client)
  | .start target caller request =>
    if caller ∈ c.calls.map Call.caller ∨ caller ∈ c.ended.map (fun e => e.1.caller) then none
    else some ((useTarget k c target).bind fun _ => .ok
      { c with
        pending := c.pending + 1
        calls := ⟨c.next, caller, request⟩ :: c.calls
        callers := fun i => if i = caller then { c.callers i with request := none } else c.callers i
        next := c.next + 1 })
  | .finish id e =>
    match c.calls.find? (fun x => x.id == id) with
    | none => none
    | some x => some (.ok
      { c with calls := c.calls.filter (fun y => y.id != id), ended := (x, e) :: c.ended })
  | .callback id =>
    if k = .polling ∧ c.running ≠ [] then none
    else
      match c.ended.find? (fun x => x.1.id == id) with
      | none => none
      | some x => some (.ok
        { c with
          ended := c.ended.filter (fun y => y.1.id != id)
          running := id :: c.running
          callers := fun i =>
            if i = x.1.caller then deliver (c.callers i) x.1.request x.2 else c.callers i })
  | .returned id =>
    if id ∈ c.running then
      some (.ok { c with running := c.running.filter (· != id), pending := c.pending - 1 })
    else none
  | .shutdown =>
    if c.pending = 0 then some (.ok { c with peers := [], stopped := true }) else none

/-- A sequence of steps, up to the first that does not go well; `none`: it cannot happen.
Code: protocol_driver_grpc.cc:183-294, 534-577. -/
def run (k : ClientKind) (c : Client) : List Op → Option (Outcome Client)
  | [] => some (.ok c)
  | op :: ops =>
    match step k c op with
    | some (.ok c') => run k c' ops
    | some (.error e) => some (.error e)
    | some .ub => some .ub
    | some .crash => some .crash
    | none => none

/-- The sample that `RecordLatency` logs (distbench_engine.cc 1737, 1746-1758), as far as it comes
from the driver: whether it is listed as successful, size and warmup flag of the request, and the
error message.  `none` in a request field: unspecified, read from a moved-from message.
Simplification: the size of the response is that of its body and its message. -/
structure Sample where
  successful : Option Bool
  requestSize : Option Nat
  warmup : Option Bool
  response : Response
  deriving DecidableEq, Repr

/-- `RecordLatency`, distbench_engine.cc 1737-1758; likewise `RecordPackedLatency`, 1761-1792. -/
def sampleOf (c : Caller) : Sample where
  successful := c.success
  requestSize := c.request.map Request.size
  warmup := c.request.map Request.warmup
  response := c.response

end Distbench.Grpc
