import Verif.Model.Modes
import Verif.Spec.Commands
import Verif.Spec.Timeout

/-! Specification of how the `distbench` binary is started. -/

namespace Distbench.Spec
open Sequencer Services Placement Modes

/-- The names of the modes. -/
def modeName : Mode → Str
  | .testSequencer => "test_sequencer".toList
  | .nodeManager => "node_manager".toList
  | .runTests => "run_tests".toList
  | .checkTest => "check_test".toList
  | .testPreview => "test_preview".toList

/-- The binary is asked for its usage: `-h` is among its arguments, or it is called as
`distbench help`. -/
def AsksForUsage (argv : List Str) (positional : Option (List Str)) : Prop :=
  "-h".toList ∈ argv ∨ ∃ program rest, positional = some (program :: "help".toList :: rest)

/-- The binary is asked to run a mode: the first argument that is not a flag is its name, and only
a node manager is given more of them. -/
def AsksForMode (argv : List Str) (positional : Option (List Str)) (mode : Mode) (arguments : List Str) :
    Prop :=
  "-h".toList ∉ argv ∧ ∃ program, positional = some (program :: modeName mode :: arguments) ∧
    (arguments ≠ [] → mode = .nodeManager)

/-- What a preview makes of a test: it is brought into canonical form, and all the instances that
have to be placed are bundled on node0; constraints and attributes are as given. -/
def PreviewSent (test sent : PreviewTest) : Prop :=
  Tables.canonicalDescription test.config = .ok sent.config ∧
  (∃ instances, problemServices sent.config.services = some instances ∧
    sent.bundles = [("node0".toList, instances)]) ∧
  sent.constraints = test.constraints ∧ sent.attributes = test.attributes

/-- The tests of a file and those sent, one by one. -/
inductive AllPreviewSent : List PreviewTest → List PreviewTest → Prop
  | nil : AllPreviewSent [] []
  | cons {test sent tests sents} : PreviewSent test sent → AllPreviewSent tests sents →
      AllPreviewSent (test :: tests) (sent :: sents)

/-- Every answer without an error is one that the test sequencer of the preview gave to a call with
the tests that were sent, in some history of calls. -/
def PreviewAnswers {Settings : Type} (call : List PreviewTest → Settings → Sequencer.Call)
    (answer : List PreviewTest → Settings → Int → Except Str (List TestResult)) : Prop :=
  ∀ sent settings deadline results, answer sent settings deadline = .ok results →
    (call sent settings).tests = sent.length ∧
    ∃ (prog : List Sequencer.Call) (s : Calls) (i : Nat) (c : CallState) (e : Ended), CallRun prog s ∧
      s.calls[i]? = some c ∧ prog[i]? = some (call sent settings) ∧
      c.place = .returned e ∧ e.error = none ∧ e.results = results

/-- The results in the form asked for. -/
def previewForm {Settings : Type} (p : Preview Settings) (results : List TestResult) : List Nat :=
  if p.binaryOutput then p.asBinary results else p.asText results

/-- Where the results of a preview are, if `room` bytes fit the disk: printed if there is no output
file; otherwise in the file, of which only the end can be missing, and only for lack of room. -/
def PreviewShown {Settings : Type} (p : Preview Settings) (results : List TestResult) (e : PreviewExit) :
    Prop :=
  (p.outfile = [] → e.printed = some (p.asText results) ∧ e.output = none) ∧
  (p.outfile ≠ [] → e.printed = none ∧ ∃ contents, e.output = some contents ∧
    contents <+: previewForm p results ∧
    ((previewForm p results).length ≤ p.disk.room → contents = previewForm p results))

/-- The time the sequencer allows the tests, one after the other. -/
inductive MayTake : List PreviewTest → Int → Prop
  | nil : MayTake [] 0
  | cons {test tests v total} : Timeout.testDeadline test.attributes = .ok v → MayTake tests total →
      MayTake (test :: tests) (v + total)

/-- Node `i` of the process itself takes part in tests under the name `nodei`, for every `i` below
`n`, and nobody else does. -/
def LocalNodes (s : Registry) (n : Nat) : Prop :=
  ∀ id name, RegisteredAs s name id ↔ id < n ∧ name = "node".toList ++ (toString id).toList

end Distbench.Spec
