import Verif.Model.Commands
import Verif.Model.Cli

/-! Model of how the `distbench` binary is started: the choice of the mode, `distbench test_preview`
from its input to its output, and the nodes that `distbench test_sequencer --local_nodes` runs
(distbench_busybox.cc, distbench_test_sequencer_tester.cc). -/

namespace Distbench.Modes
open Services Placement Sequencer Commands

/-! ### main -/

/-- The functions that `main` chooses from.  Code: distbench_busybox.cc:446-456. -/
inductive Mode where
  | testSequencer
  | nodeManager
  | runTests
  | checkTest
  | testPreview
  deriving DecidableEq, Repr

/-- What becomes of a call of the binary: the usage is printed and the process exits with a status,
the flag library ends the process, or a mode runs with the arguments left for it.
Code: distbench_busybox.cc:86-107, 425-463. -/
inductive Call where
  | usage (status : Nat)
  | flags
  | runs (mode : Mode) (arguments : List Str)
  deriving DecidableEq, Repr

/-- `ValidateArgumentsOrExit`, distbench_busybox.cc:91-107; `false` is the exit with status 1 after
the usage. -/
def validArguments (arguments : List Str) (atLeast atMost : Nat) : Bool :=
  !(decide (arguments.length < atLeast)) && !(decide (arguments.length > atMost))

/-- `std::numeric_limits<size_t>::max()`, distbench_busybox.cc:441. -/
def sizeMax : Nat := 2 ^ 64 - 1

/-- A mode that begins with `ValidateArgumentsOrExit(arguments, 0, 0)`, distbench_busybox.cc:148, 232,
266 and 317. -/
def withoutArguments (mode : Mode) (arguments : List Str) : Call :=
  if validArguments arguments 0 0 then .runs mode arguments else .usage 1

/-- The comparisons of the name of the mode, distbench_busybox.cc:446-462. -/
def choose (name : Str) (arguments : List Str) : Call :=
  if name = "test_sequencer".toList then withoutArguments .testSequencer arguments
  else if name = "node_manager".toList then .runs .nodeManager arguments
  else if name = "run_tests".toList then withoutArguments .runTests arguments
  else if name = "check_test".toList then withoutArguments .checkTest arguments
  else if name = "test_preview".toList then withoutArguments .testPreview arguments
  else if name = "help".toList then .usage 0
  else .usage 1

/-- `main`, distbench_busybox.cc:425-463.  `parse` is `absl::ParseCommandLine`: the arguments that are
not flags, with the name of the program, or `none` if it ends the process (an unknown flag, or one
of its own like `--helpfull`).  Reading `remaining_arguments[1]` when there is none is undefined.
Simplification: `InitLibs` is not represented. -/
def main (parse : List Str → Option (List Str)) (argv : List Str) : Outcome Call :=
  if argv.any (fun argument => argument == "-h".toList) then .ok (.usage 0)
  else
    match parse argv with
    | none => .ok .flags
    | some remaining =>
      if !(validArguments remaining 2 sizeMax) then .ok (.usage 1)
      else
        match remaining[1]? with
        | none => .ub
        | some name => .ok (choose name (remaining.drop 2))

/-! ### distbench test_preview -/

/-- The part of a `DistributedSystemDescription` that matters here: what the tables are built from,
the bundles, the constraints and the attributes.  Code: traffic_config.proto
(`DistributedSystemDescription`). -/
structure PreviewTest where
  config : Tables.Config := {}
  bundles : List (Str × List Str) := []
  constraints : List (Str × ConstraintList) := []
  attributes : Map Str := []

/-- `GetCanonicalTestSequence`, distbench_utils.cc:796-814, for tests with their other parts, which
`GetCanonicalDistributedSystemDescription` copies (distbench_utils.cc:757). -/
def canonicalTests : List PreviewTest → Outcome (List PreviewTest)
  | [] => .ok []
  | test :: rest => do
    let config ← Tables.canonicalDescription test.config
    let tests ← canonicalTests rest
    .ok ({ test with config := config } :: tests)

/-- The loop of `RunTestSequenceOnSingleNodeManager`, distbench_test_sequencer_tester.cc:140-148.
`none`: the names of the instances are undefined, see `allServiceInstances`. -/
def onSingleNode : List PreviewTest → Option (List PreviewTest)
  | [] => some []
  | test :: rest =>
    match allServiceInstances test.config.services, onSingleNode rest with
    | some instances, some tests => some ({ test with bundles := [("node0".toList, instances)] } :: tests)
    | _, _ => none

/-- `required_nodes` of a test, distbench_test_sequencer_tester.cc:106-115.  Simplification: the sum
of the counts fits an `int`. -/
def requiredFor (test : PreviewTest) : Int :=
  (test.config.services.map ServiceSpec.getCount).sum - (test.bundles.map (fun b => (b.2.length : Int))).sum +
    test.bundles.length

/-- `max_required_nodes`, distbench_test_sequencer_tester.cc:104-120. -/
def nodesFor (tests : List PreviewTest) : Int :=
  tests.foldl (fun m t => if requiredFor t > m then requiredFor t else m) 0

/-- What `test_preview` is given: the contents of the input file, whether a given number of node
managers can be started, the answers of its own sequencer to `RunTestSequence` with given tests,
settings and deadline in seconds, `--outfile`, `--binary_output`, the disk, and the text and the
binary form of results.  Code: distbench_busybox.cc:265-313,
distbench_test_sequencer_tester.cc:56-136. -/
structure Preview (Settings : Type) where
  parsers : Parsers PreviewTest Settings
  infile : Option (List Nat)
  starts : Int → Bool
  answer : List PreviewTest → Settings → Int → Except Str (List TestResult)
  outfile : Str
  binaryOutput : Bool
  disk : Disk
  held : Nat
  asText : List TestResult → List Nat
  asBinary : List TestResult → List Nat

/-- How `test_preview` ends: the exit status, what it printed of the results, and what is in the
output file if it was written.  Code: distbench_busybox.cc:265-313. -/
structure PreviewExit where
  status : Nat
  printed : Option (List Nat) := none
  output : Option (List Nat) := none
  deriving DecidableEq, Repr

/-- The end of `MainTestPreview`, distbench_busybox.cc:296-312. -/
def showResults {Settings : Type} (p : Preview Settings) (results : List TestResult) : PreviewExit :=
  if p.outfile.isEmpty then { status := 0, printed := some (p.asText results) }
  else
    let saved := if p.binaryOutput then saveBinary p.disk p.held (p.asBinary results)
      else saveText p.disk (p.asText results)
    { status := if saved.ok then 0 else 1, output := saved.contents }

/-- `TEST_TIMEOUT_S`, distbench_busybox.cc:281. -/
def previewTimeout : Int := 3000

/-- `MainTestPreview` up to the RPC `RunTestSequence`, distbench_busybox.cc:265-288, with
`RunTestSequenceOnSingleNodeManager` and `RunTestSequence` of the tester
(distbench_test_sequencer_tester.cc:102-150): the tests, settings and deadline of the RPC, or `none` for
an exit with status 1.  Simplification: `Initialize` of the tester always returns OK
(distbench_test_sequencer_tester.cc:81-100); `Resize` does nothing if no node is needed (:60-62). -/
def previewCall {Settings : Type} (p : Preview Settings) :
    Outcome (Option (List PreviewTest × Settings × Int)) :=
  match parseFile p.parsers p.infile with
  | none => .ok none
  | some (tests, settings) =>
    match canonicalTests tests with
    | .error _ => .ok none
    | .ub => .ub
    | .crash => .crash
    | .ok canonical =>
      match onSingleNode canonical with
      | none => .ub
      | some sent =>
        if nodesFor sent ≠ 0 ∧ p.starts (nodesFor sent) = false then .ok none
        else .ok (some (sent, settings, previewTimeout))

/-- `MainTestPreview`, distbench_busybox.cc:265-313. -/
def mainTestPreview {Settings : Type} (p : Preview Settings) : Outcome PreviewExit :=
  (previewCall p).bind fun
    | none => .ok { status := 1 }
    | some (sent, settings, deadline) =>
      match p.answer sent settings deadline with
      | .error _ => .ok { status := 1 }
      | .ok results => .ok (showResults p results)

/-! ### distbench test_sequencer --local_nodes -/

/-- `nodes.reserve(num_nodes)`, distbench_busybox.cc:327: a negative number becomes a `size_t` that no
vector can hold, and nobody catches the exception.  Simplification: memory suffices otherwise. -/
def reserveNodes (count : Int) : Outcome Unit := if count < 0 then .crash else .ok ()

/-- `MainTestSequencer` while it starts the nodes of `--local_nodes`, distbench_busybox.cc:326-345: the
registry of its sequencer, and what each of its nodes so far was answered (`none`: it could not be
initialized, which is printed but has no other effect).  `places i` is where its node `i` runs.  Nodes
elsewhere may register at any time, if there are any (`others`); nodes of the process itself may fail
before they register, if they may (`failures`). -/
inductive Local (count : Int) (places : Nat → Cli.Place) (others failures : Bool) :
    Registry → List (Option (Nat × Str)) → Prop
  | start : reserveNodes count = .ok () → Local count places others failures {} []
  | other {s s' answers r a} : others = true → Local count places others failures s answers →
      register s r = .ok (s', a) → Local count places others failures s' answers
  | node {s s' answers a} : Local count places others failures s answers →
      (answers.length : Int) < count →
      register s (Cli.registrationOf (places answers.length) answers.length []) = .ok (s', a) →
      Local count places others failures s' (answers ++ [a])
  | failed {s answers} : failures = true → Local count places others failures s answers →
      (answers.length : Int) < count → Local count places others failures s (answers ++ [none])

end Distbench.Modes
