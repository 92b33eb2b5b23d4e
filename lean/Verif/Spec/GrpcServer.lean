import Verif.Model.GrpcServer

/-! Specification vocabulary for the polling server. -/

namespace Distbench.Spec
open GrpcServer

/-- These steps lead from the start of the server to this state. -/
def LeadsTo (ops : List Op) (s : Server) : Prop :=
  ∃ s0, start = .ok s0 ∧ run s0 ops = some (.ok s)

/-- The requests that arrived.  Each is for an object of its own, whose number identifies it. -/
def arrived (ops : List Op) : List Nat :=
  ops.filterMap fun | .arrive f => some f | _ => none

/-- The requests that the handler was called with. -/
def givenToHandler (s : Server) : List Nat :=
  s.log.filterMap fun | .handled f => some f | _ => none

/-- The requests whose response was given to gRPC. -/
def responded (s : Server) : List Nat :=
  s.log.filterMap fun | .answered f => some f | _ => none

/-- Only new requests and the call of `ShutdownServer` can still happen. -/
def NothingLeft (s : Server) : Prop :=
  ∀ op, (∀ f, op ≠ .arrive f) → op ≠ .close → step s op = none

/-- The server's thread has nothing to do. -/
def ThreadWaits (s : Server) : Prop :=
  step s .settle = none ∧ ∀ f, step s (.take f) = none

/-- `ShutdownServer` was called. -/
def ShutdownCalled (ops : List Op) : Prop := Op.close ∈ ops

/-- `ShutdownServer` has returned: the thread was joined. -/
def ShutdownReturned (ops : List Op) : Prop := Op.exit ∈ ops

/-- gRPC could not send some response. -/
def SendFailed (ops : List Op) : Prop := ∃ f, Op.sent f false ∈ ops

end Distbench.Spec
