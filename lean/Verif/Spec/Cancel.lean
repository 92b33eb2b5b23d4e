import Verif.Model.Cancel

/-! Specification of cancelling and of shutting down. -/

namespace Distbench.Spec
open Cancel

/-- In this history, the node was told to run traffic and has not answered since. -/
def TrafficOn (h : List Event) (node : Nat) : Prop :=
  ∃ before after, h = before ++ .runSent node :: after ∧ .runAnswered node ∉ after

/-- The part of the history that belongs to the last test: what happened since it was configured. -/
def lastTest : List Event → List Event
  | [] => []
  | e :: rest => if .configured ∈ rest then lastTest rest else
      if e = .configured then rest else e :: rest

/-- In the last test, some request has told the node to stop. -/
def ToldToStop (h : List Event) (node : Nat) : Prop := ∃ i, .cancelSent i node ∈ lastTest h

/-- In the last test, some request has begun to cancel and has finished doing so. -/
def SomeoneCancelled (h : List Event) : Prop :=
  ∃ i, .cancelBegins i ∈ lastTest h ∧ .cancelReturns i ∈ lastTest h

end Distbench.Spec
