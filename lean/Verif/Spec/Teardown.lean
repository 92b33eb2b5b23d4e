import Verif.Model.Teardown

/-! Specification of the destruction of an engine. -/

namespace Distbench.Spec
open Teardown

/-- A thread that is at this place may use the engine: it is in its handler, or it runs or will run
one of its action lists. -/
def UsesEngine : Place → Prop
  | .handling | .listed | .answered => True
  | _ => False

/-- No thread uses the engine any more, now or later. -/
def Unused (s : Engine) : Prop := (∀ p ∈ s.calls, ¬ UsesEngine p) ∧ s.main = false ∧ s.setups = 0

/-- The destructor was called and has not returned. -/
def BeingDestroyed (s : Engine) : Prop := s.phase ≠ .alive ∧ s.phase ≠ .destroyed

/-- A call that nobody will ever answer: it waits for a handler that was not set, or it was a replayed
RPC with a pause and the handoff server. -/
def NeverAnswered (s : Engine) : Prop :=
  (.waiting ∈ s.calls ∧ s.handler = false) ∨ .silent ∈ s.calls

end Distbench.Spec
