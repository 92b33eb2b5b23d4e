import Verif.Model.Mercury

/-! Specification of the Mercury protocol driver. -/

namespace Distbench.Spec
open Mercury

/-- How often the done callback of RPC `id` ran. -/
def callbackRuns (id : Nat) (h : List Event) : Nat := h.count (.calledBack id)

/-- RPC `id` was given up because Mercury reported an error. -/
def GivenUp (id : Nat) (h : List Event) : Prop := .notForwarded id ∈ h ∨ .noOutput id ∈ h

/-- No RPC is initiated. -/
def NoNewRpc (h : List Event) : Prop := ∀ id, .initiated id ∉ h

end Distbench.Spec
