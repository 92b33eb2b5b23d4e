import Verif.Model.Compose

/-! Specification of the composite drivers. -/

namespace Distbench.Spec
open Compose

/-- The real drivers below a driver, from left to right, with the calls each of them got. -/
def realDrivers : Tree → List (Nat × List Call)
  | .leaf id calls => [(id, calls)]
  | .doubleBarrel _ a b => realDrivers a ++ realDrivers b
  | .counter _ a => realDrivers a

/-- The calls that concern every real driver. -/
def ForAll : Call → Prop
  | .setHandler | .setNumPeers _ | .connectFailure _ | .churn _ | .shutdownClient
  | .shutdownServer => True
  | _ => False

/-- The calls about multi-server channels. -/
def AboutChannels : Call → Prop
  | .setNumChannels _ | .setupChannel _ _ | .initiateToChannel _ _ => True
  | _ => False

/-- A composite driver. -/
def IsComposite : Tree → Prop
  | .leaf _ _ => False
  | _ => True

/-- The RPCs to peers among some calls. -/
def rpcsTo (calls : List Call) : List (Int × Nat) :=
  calls.filterMap fun
    | .initiate peer rpc => some (peer, rpc)
    | _ => none

end Distbench.Spec
