import Verif.Model.Basic

/-! Model of the client side of the Mercury protocol driver (protocol_driver_mercury.cc): how RPCs are
completed and how the client is shut down, and of the format of its messages.

Not modelled: the server side, whose requests and responses are in the hands of the Mercury
library. -/

namespace Distbench.Mercury

/-! ### messages -/

/-- `hg_proc_hg_int64_t` when encoding: eight bytes, lowest first.
Code: protocol_driver_mercury.cc:336-353. -/
def encodeInt64 (n : Nat) : Nat → List Nat
  | 0 => []
  | k + 1 => n % 256 :: encodeInt64 (n / 256) k

/-- `hg_proc_hg_int64_t` when decoding: `none` if there are not enough bytes.
Code: protocol_driver_mercury.cc:336-353. -/
def decodeInt64 : Nat → List Nat → Option (Nat × List Nat)
  | 0, bytes => some (0, bytes)
  | k + 1, bytes =>
    match bytes with
    | [] => none
    | b :: rest =>
      match decodeInt64 k rest with
      | none => none
      | some (n, rest) => some (b + 256 * n, rest)

/-- `GenericRpcSerializer` when encoding, protocol_driver_mercury.cc:336-353: the size of the string
twice, and its bytes. -/
def encode (string : List Nat) : List Nat :=
  encodeInt64 string.length 8 ++ encodeInt64 string.length 8 ++ string

/-- Reading one size into `slen`, which keeps its value if that fails.
Code: protocol_driver_mercury.cc:336-353. -/
def readSize (slen : Nat) (bytes : List Nat) : Nat × List Nat :=
  match decodeInt64 8 bytes with
  | some (n, rest) => (n, rest)
  | none => (slen, bytes)

/-- `GenericRpcSerializer` when decoding, protocol_driver_mercury.cc:336-353: the second size counts.
The string starts out empty; errors at the sizes are logged and forgotten.  Simplification: sizes that
`resize` cannot provide are not represented. -/
def decode (bytes : List Nat) : Option (List Nat × List Nat) :=
  let first := readSize 0 bytes
  let second := readSize first.1 first.2
  if second.1 ≤ second.2.length then some (second.2.take second.1, second.2.drop second.1) else none

/-! ### one RPC -/

/-- The parts of a request that its sample is made from.
Code: distbench.proto:287-335 (`GenericRequestResponse`); protocol_driver_mercury.cc:248. -/
structure Request where
  size : Nat := 0
  warmup : Bool := false
  deriving DecidableEq, Repr

/-- `ClientRpcState`, protocol_driver.h:28-35: the request, the response and whether it succeeded. -/
structure RpcState where
  request : Request := {}
  response : Option (List Nat) := none
  success : Bool := false
  deriving DecidableEq, Repr

/-- The request is moved out of the state into the pending RPC, protocol_driver_mercury.cc:248:
the moved-from message is empty. -/
def initiateState (s : RpcState) : RpcState × Request := ({ s with request := {} }, s.request)

/-- The result of `HG_Get_output` and of parsing it.  Code: protocol_driver_mercury.cc:428-443. -/
inductive Output where
  | failed
  | unparsable
  | parsed (response : List Nat)
  deriving DecidableEq, Repr

/-- What the callback sees in the state, `RpcClientCallback`, protocol_driver_mercury.cc:424-444; `none`
if the callback does not run.  The status Mercury gives to the callback is overwritten in line 443. -/
def finishState (s : RpcState) (request : Request) : Output → Option RpcState
  | .failed => none
  | .unparsable => some { s with success := false }
  | .parsed response => some { request, response := some response, success := true }

/-! ### the client -/

/-- What happens on the client side.  Code: protocol_driver_mercury.cc:226-300, 424-459. -/
inductive Event where
  /-- `InitiateRpc` is called for RPC `id`. -/
  | initiated (id : Nat)
  /-- `HG_Create` or `HG_Forward` fails and `InitiateRpc` returns. -/
  | notForwarded (id : Nat)
  /-- `HG_Forward` succeeds and `InitiateRpc` returns. -/
  | forwarded (id : Nat)
  /-- `HG_Get_output` fails. -/
  | noOutput (id : Nat)
  /-- The done callback of RPC `id` runs. -/
  | calledBack (id : Nat)
  /-- `ShutdownClient` is called. -/
  | shutdownCalled
  /-- `ShutdownClient` returns. -/
  | shutdownReturned
  /-- A step that nobody else can see. -/
  | silent
  deriving DecidableEq, Repr

/-- How far `ShutdownClient` is: not called, waiting for `pending_rpcs_`, joining the polling thread
after `client_shutdown_` was notified, or returned.  Code: protocol_driver_mercury.cc:273-282. -/
inductive Phase where
  | running
  | waiting
  | notified
  | returned
  deriving DecidableEq, Repr

/-- The client side: the calls of `InitiateRpc` under way, the RPCs that were forwarded, the RPC whose
callback the polling thread has run, whether that thread has ended, `pending_rpcs_` and the number of
RPCs.  Code: protocol_driver_mercury.cc:226-300, 424-459. -/
structure Client where
  sending : List Nat := []
  inflight : List Nat := []
  completing : Option Nat := none
  ended : Bool := false
  pending : Nat := 0
  phase : Phase := .running
  next : Nat := 0
  deriving DecidableEq, Repr

/-- One step of the client side.  Simplification: Mercury runs the callback of an RPC that was
forwarded once.  Code: protocol_driver_mercury.cc:226-300, 424-459. -/
inductive Step : Client → Event → Client → Prop
  /-- protocol_driver_mercury.cc:228-238. -/
  | initiate {s} :
      Step s (.initiated s.next)
        { s with sending := s.next :: s.sending, pending := s.pending + 1, next := s.next + 1 }
  /-- protocol_driver_mercury.cc:239-243 and 256-259. -/
  | notForward {s id} : id ∈ s.sending →
      Step s (.notForwarded id) { s with sending := s.sending.erase id, pending := s.pending - 1 }
  /-- protocol_driver_mercury.cc:254-255. -/
  | forward {s id} : id ∈ s.sending →
      Step s (.forwarded id)
        { s with sending := s.sending.erase id, inflight := id :: s.inflight }
  /-- The polling thread runs the callback of Mercury, which finds no output,
  protocol_driver_mercury.cc:424-434. -/
  | noOutput {s id} : s.ended = false → s.completing = none → id ∈ s.inflight →
      Step s (.noOutput id) { s with inflight := s.inflight.erase id, pending := s.pending - 1 }
  /-- The polling thread runs the callback of Mercury, which runs the done callback,
  protocol_driver_mercury.cc:436-444. -/
  | callBack {s id} : s.ended = false → s.completing = none → id ∈ s.inflight →
      Step s (.calledBack id) { s with inflight := s.inflight.erase id, completing := some id }
  /-- protocol_driver_mercury.cc:446-458. -/
  | complete {s id} : s.completing = some id →
      Step s .silent { s with completing := none, pending := s.pending - 1 }
  /-- `ShutdownClient`, protocol_driver_mercury.cc:273. -/
  | shutdown {s} : s.phase = .running →
      Step s .shutdownCalled { s with phase := .waiting }
  /-- protocol_driver_mercury.cc:274-277: nothing is pending. -/
  | notify {s} : s.phase = .waiting → s.pending = 0 →
      Step s .silent { s with phase := .notified }
  /-- The polling thread ends, protocol_driver_mercury.cc:285. -/
  | end_ {s} : s.phase = .notified → s.ended = false → s.completing = none →
      Step s .silent { s with ended := true }
  /-- The polling thread is joined, protocol_driver_mercury.cc:278-282. -/
  | return_ {s} : s.phase = .notified → s.ended = true →
      Step s .shutdownReturned { s with phase := .returned }

/-- The histories of a client.  Code: protocol_driver_mercury.cc:226-300, 424-459. -/
inductive Run : List Event → Client → Prop
  | start : Run [] {}
  | step {h s e s'} : Run h s → Step s e s' → Run (h ++ [e]) s'

/-- How a client goes on from a state.  Code: protocol_driver_mercury.cc:226-300, 424-459. -/
inductive Steps : Client → List Event → Client → Prop
  | done {s} : Steps s [] s
  | step {s e s' h s''} : Step s e s' → Steps s' h s'' → Steps s (e :: h) s''

end Distbench.Mercury
