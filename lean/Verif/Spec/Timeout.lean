import Verif.Model.Timeout
import Verif.Spec.Placement

/-! Specification of the timeouts of tests. -/

namespace Distbench.Spec
open Sequencer

/-- The test has a timeout attribute that is the number `v`. -/
def TimeoutGiven (test : Map Str) (v : Int) : Prop :=
  ∃ text, test.find "test_timeout".toList = some text ∧ DenotesInt text v

/-- The test has no timeout attribute. -/
def TimeoutAbsent (test : Map Str) : Prop := test.find "test_timeout".toList = none

/-- The test has a timeout attribute that is not a number. -/
def TimeoutUnreadable (test : Map Str) : Prop :=
  ∃ text, test.find "test_timeout".toList = some text ∧ ¬ ∃ v, DenotesInt text v

/-- All tests have a positive timeout, and these are the timeouts. -/
inductive AllGiven : List (Map Str) → List Int → Prop
  | nil : AllGiven [] []
  | cons {test tests v vs} : TimeoutGiven test v → 0 < v → AllGiven tests vs →
      AllGiven (test :: tests) (v :: vs)

end Distbench.Spec
