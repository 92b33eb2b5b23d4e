import Verif.Model.NodeLocks

/-! Specification of calls that get through. -/

namespace Distbench.Spec
open NodeLocks

/-- From the state `s` a waiting call of `CancelTraffic` can be carried out, though no traffic ends
before it was told to stop. -/
def CancelGetsThrough (overtake : Bool) (s : Calls) : Prop :=
  ∃ es t, NodeLocks.Run overtake s es t ∧ .over ∉ es ∧ .cancel ∈ es

/-- The start-up has returned. -/
def StartupReturned (s : Startup) : Prop := s.phase = .serves ∨ s.phase = .failed

end Distbench.Spec
