import Verif.Model.Serving

/-! Specification of the way of requests through the servers, in terms of what has happened. -/

namespace Distbench.Spec
open Serving

/-- How many requests have arrived; they are numbered from 0 in this order. -/
def requestsArrived (ops : List Op) : Nat := ops.count .arrive

/-- These steps are possible from the start of the server, without a failure, and lead to this state. -/
def Served (k : Kind) (ops : List Op) (s : Server) : Prop := run k {} ops = some (.ok s)

/-- Only new requests, another call of `SetHandler` and a call of `ShutdownServer` can still happen. -/
def ServerIdle (k : Kind) (s : Server) : Prop :=
  ∀ op, op ≠ .arrive → op ≠ .setBegin → op ≠ .shutdown → step k s op = none

/-- The handler was set before this step. -/
def SetBefore (pre : List Op) : Prop := Op.setEnd ∈ pre

/-- Requests came only after the handler was set. -/
def OnlyAfterSet (ops : List Op) : Prop := ∀ pre post, ops = pre ++ .arrive :: post → SetBefore pre

/-- The engine sends a response for every request before it is done with it. -/
def AlwaysAnswers (ops : List Op) : Prop :=
  ∀ pre id post, ops = pre ++ .done id :: post → ∃ r, Op.send id r ∈ pre

/-- The handler is never called while it is being set. -/
def NoOverlap (ops : List Op) : Prop :=
  ∀ pre mid id post, ops = pre ++ .setBegin :: mid ++ .take id :: post → Op.setEnd ∈ mid

end Distbench.Spec
