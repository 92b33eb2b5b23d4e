import Verif.Model.Lifetime
import Verif.Spec.ActionList

/-! Vocabulary for the use of the request of an incoming RPC. -/

namespace Distbench.Spec
open ActionList Lifetime

/-- After these events (newest first), action `i` of the list is running and may read the request of
the RPC that the list handles: it runs RPCs, a replay or another list, it was started, and it has
neither finished nor sent the response. -/
def MayRead (c : Ctx) (log : List Event) (i : Nat) : Prop :=
  (∃ a, c.entry.listActions[i]? = some a ∧ ((∃ name, a.proto.kind = .rpc name) ∨
      (∃ name, a.proto.kind = .actionList name) ∨ ∃ name, a.proto.kind = .replay name)) ∧
    (∃ t, .initiated i t ∈ log) ∧ .finished i ∉ log ∧
    ∀ o, .response (some i) o ∉ log

end Distbench.Spec
