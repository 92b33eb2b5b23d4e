import Verif.Model.Basic
import Verif.Model.Payload

/-! Model of what the Homa driver puts on the wire and makes of what it receives
(protocol_driver_homa.cc:38-99, 383-391, 444-463, 480-494), for every combination of the `nocopy`
settings of the two sides, and of the ping-pong mode. -/

namespace Distbench.HomaWire
open Payload

/-- The bytes that are sent for a message by a driver with this `nocopy`: the serialized message, or a
placeholder when that is empty.  Code: protocol_driver_homa.cc:38-40, 383-391, 480-494. -/
def wire (nocopy : Bool) (m : Msg) : List Nat :=
  if serializeToCord m nocopy = [] then [7] else serializeToCord m nocopy

/-- `SlowParse`, protocol_driver_homa.cc:46-54: the message is copied to a buffer of 1 MiB; more bytes
than that are read from beyond the buffer.  A failed `ParseFromArray` leaves an unspecified message; the
model uses the default message. -/
def slowParse (msg : List Nat) : FastParseResult :=
  if 1048576 < msg.length then .ub
  else
    let bytes := if msg = [7] then [] else msg
    .parsed (parse bytes).isSome ((parse bytes).getD {})

/-- `Parse`, protocol_driver_homa.cc:92-99, with `FastParse` of lines 56-90, into a message object that
holds `old`: the placeholder leaves the object as it is when copies are avoided; otherwise
`ParseFromArray` clears it first.  `page` and `maxPages` are `HOMA_BPAGE_SIZE` and `HOMA_MAX_BPAGES`. -/
def Receive (nocopy : Bool) (page maxPages : Nat) (old : Msg) (msg : List Nat) (r : FastParseResult) : Prop :=
  if nocopy = true then
    let initial := msg.take (contiguous page msg.length 0)
    if initial.length = 1 ∧ initial.head? = some 7 then r = .parsed true old
    else ∃ r0, FastParse page maxPages msg r0 ∧ r = (if r0 = .slow then slowParse msg else r0)
  else r = slowParse msg

/-- The ping-pong mode of the server, protocol_driver_homa.cc:447-463: the reply to a request is made of
the pieces of the request, at most `maxPages`; if they do not reach its end, the process ends. -/
def pingPong (page maxPages : Nat) (msg : List Nat) : Outcome (List Nat) :=
  match collectChunks page msg maxPages 0 [] with
  | some reply => .ok reply
  | none => .crash

end Distbench.HomaWire
