import Verif.Model.ActionList
import Verif.Model.Grpc

/-! How long the request of an incoming RPC exists, in the three servers of the gRPC driver. -/

namespace Distbench.Lifetime
open ActionList

/-- Whether the request message that `ServerRpcState::request` points to certainly still exists
after these events (newest first) of the action list that handles the RPC.
* inline server, protocol_driver_grpc.cc 306-324: gRPC keeps the request until `GenericRpc` returns;
  the list runs within it (`have_dedicated_thread`);
* handoff server, 593-612: gRPC keeps the request until the call is finished, which
  `reactor->Finish` in the function that sends the response (600-603) does.  `request_copy`
  (protocol_driver.h 49-55) is not used by this driver;
* polling server, 716-731 and 762: the request is a member of the object that is kept at least until
  the state is freed (C161). -/
def requestExists : Grpc.ServerKind → List Event → Bool
  | .inline, log => !log.contains .freed
  | .polling, log => !log.contains .freed
  | .handoff, log => !log.any (fun | .response _ _ => true | _ => false)

/-- The kinds of action that read the request of the incoming RPC while they run:
an RPC reads it in every iteration (distbench_engine.cc 2125-2128), a replay and an action list when
they are initiated (1797-1799, 1841-1843). -/
def readsRequest (c : Ctx) (i : Nat) : Bool :=
  match c.entry.listActions[i]? with
  | none => false
  | some a =>
    match a.proto.kind with
    | .rpc _ => true
    | .actionList _ => true
    | .replay _ => true
    | _ => false

end Distbench.Lifetime
