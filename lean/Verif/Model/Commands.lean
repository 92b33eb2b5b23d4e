import Verif.Model.Timeout
import Verif.Model.Placement
import Verif.Model.Payload
import Verif.Model.Netutils

/-! Model of the commands of the `distbench` binary: how files with test sequences are read, what
`run_tests` and `test_preview` do and how they end, and how the two servers start
(distbench_busybox.cc, distbench_utils.cc:139-160, 169-183, 374-430,
distbench_test_sequencer_tester.cc, distbench_node_manager.cc:260-273, 287-369,
distbench_test_sequencer.cc:679-717).

Bytes are natural numbers below 256. -/

namespace Distbench.Commands
open Sequencer Services Placement

/-! ### Reading files -/

/-- A varint of the wire format of at most the given number of bytes: its value and what follows.
Part of `ParseFromString`, distbench_utils.cc:390-391. -/
def varint : Nat → List Nat → Option (Nat × List Nat)
  | 0, _ => none
  | _ + 1, [] => none
  | k + 1, b :: rest =>
    if b < 128 then some (b, rest)
    else
      match varint k rest with
      | none => none
      | some (v, rest) => some (b % 128 + 128 * v, rest)

/-- What the parser of protobuf does with the bytes of a message: the length-delimited fields at
the top level, with their numbers, and what is left.  `group` is the number of the group that is
being read (`none`: the whole message); a group ends with its own end tag, the message with its last
byte.  `depth` is how deep groups may still nest; `fuel` is more than the number of bytes.
Part of `ParseFromString`, distbench_utils.cc:390-391. -/
def scan : Nat → Nat → Option Nat → List Nat → Option (List (Nat × List Nat) × List Nat)
  | 0, _, _, _ => none
  | _ + 1, _, group, [] => if group = none then some ([], []) else none
  | fuel + 1, depth, group, b :: bytes =>
    match varint 5 (b :: bytes) with
    | none => none
    | some (value, rest) =>
      let tag := value % 2 ^ 32
      if tag = 0 ∨ tag % 8 = 4 then
        match group with
        | none => none
        | some number => if tag = 8 * number + 4 then some ([], rest) else none
      else if tag / 8 = 0 then none
      else if tag % 8 = 0 then
        match varint 10 rest with
        | none => none
        | some (_, rest) => scan fuel depth group rest
      else if tag % 8 = 1 then
        if rest.length < 8 then none else scan fuel depth group (rest.drop 8)
      else if tag % 8 = 2 then
        match varint 5 rest with
        | none => none
        | some (size, rest) =>
          if size ≤ 2 ^ 31 - 17 ∧ size ≤ rest.length then
            match scan fuel depth group (rest.drop size) with
            | none => none
            | some (fields, left) => some ((tag / 8, rest.take size) :: fields, left)
          else none
      else if tag % 8 = 3 then
        if depth = 0 then none
        else
          match scan fuel (depth - 1) (some (tag / 8)) rest with
          | none => none
          | some (_, rest) => scan fuel depth group rest
      else if tag % 8 = 5 then
        if rest.length < 4 then none else scan fuel depth group (rest.drop 4)
      else none

/-- The parsers of the parts of a `TestSequence` (distbench.proto:28-31): of one test, of the
occurrences of the settings, and of the text format.  They belong to protobuf and are arbitrary. -/
structure Parsers (Test Settings : Type) where
  test : List Nat → Option Test
  settings : List (List Nat) → Option Settings
  text : List Nat → Option (List Test × Settings)

/-- Applies a parser to each of some texts; `none` if one is refused.
Code: distbench_utils.cc:390-391. -/
def parseEach {Test : Type} (parse : List Nat → Option Test) : List (List Nat) → Option (List Test)
  | [] => some []
  | bytes :: rest =>
    match parse bytes, parseEach parse rest with
    | some t, some ts => some (t :: ts)
    | _, _ => none

/-- The contents of the fields with a given number.  Code: distbench.proto:28-31. -/
def fieldsOf (number : Nat) (fields : List (Nat × List Nat)) : List (List Nat) :=
  (fields.filter fun f => f.1 == number).map (·.2)

/-- `TestSequence::ParseFromString`, distbench_utils.cc:390-391; distbench.proto:28-31. -/
def parseBinary {Test Settings : Type} (p : Parsers Test Settings) (bytes : List Nat) :
    Option (List Test × Settings) :=
  match scan (bytes.length + 1) 100 none bytes with
  | none => none
  | some (fields, _) =>
    match parseEach p.test (fieldsOf 1 fields), p.settings (fieldsOf 2 fields) with
    | some tests, some settings => some (tests, settings)
    | _, _ => none

/-- `ParseTestSequenceProtoFromFile`, distbench_utils.cc:384-400, with `ReadFileToString`, 169-183,
and `ParseTestSequenceTextProto`, 374-382: binary is tried first, then text.  `contents` is `none` if
the file cannot be opened. -/
def parseFile {Test Settings : Type} (p : Parsers Test Settings) (contents : Option (List Nat)) :
    Option (List Test × Settings) :=
  match contents with
  | none => none
  | some bytes =>
    match parseBinary p bytes with
    | some sequence => some sequence
    | none => p.text bytes

/-! ### Writing files -/

/-- The place a file is written to: whether the file can be opened, and how many bytes can be
written before writing fails.  Code: distbench_utils.cc:403-430. -/
structure Disk where
  canOpen : Bool
  room : Nat

/-- The outcome of saving: whether the status was OK, and the contents of the file afterwards
(`none`: it could not be opened).  Code: distbench_utils.cc:403-430. -/
structure Saved where
  ok : Bool
  contents : Option (List Nat)
  deriving DecidableEq, Repr

/-- The number of bytes that `FileOutputStream` has handed to the operating system when
`TextFormat::Print` returns: it writes a block of 8192 bytes when the next byte does not fit.
Code: distbench_utils.cc:412-415. -/
def writtenByPrint (size : Nat) : Nat := (size - 1) / 8192 * 8192

/-- `SaveResultProtoToFile`, distbench_utils.cc:403-418, for results whose text is `text`.  The last
block is written by the destructor of the stream, whose result nobody sees. -/
def saveText (d : Disk) (text : List Nat) : Saved :=
  if d.canOpen then
    { ok := decide (writtenByPrint text.length ≤ d.room), contents := some (text.take d.room) }
  else { ok := false, contents := none }

/-- `SaveResultProtoToFileBinary`, distbench_utils.cc:420-430.  `held` is the number of bytes that are
still in the buffer of the `std::fstream` when `SerializeToOstream` looks at its state; they are
written by its destructor.  Simplification: messages of more than 2 GiB do not occur, the sequencer
does not send them (distbench_test_sequencer.cc:211-220). -/
def saveBinary (d : Disk) (held : Nat) (bytes : List Nat) : Saved :=
  if d.canOpen then
    { ok := decide (bytes.length - held ≤ d.room), contents := some (bytes.take d.room) }
  else { ok := false, contents := none }

/-! ### distbench run_tests -/

/-- `ToInt64Seconds` of a duration in nanoseconds.  Simplification: the duration is not infinite.
Code: distbench_busybox.cc:158-159. -/
def wholeSeconds (nanoseconds : Int) : Int := nanoseconds.tdiv 1000000000

/-- What `run_tests` is given: the contents of the input file, `--max_test_duration` in nanoseconds,
the answers of the sequencer to the RPC `RunTestSequence` with given tests and deadline in seconds,
`--outfile`, `--binary_output`, the disk, and the text and the binary form of results.  A test is
represented by its attributes.  Code: distbench_busybox.cc:147-229. -/
structure RunTests (Settings : Type) where
  parsers : Parsers (Map Str) Settings
  infile : Option (List Nat)
  maxTestDuration : Int
  answer : List (Map Str) → Int → Except Str (List TestResult)
  outfile : Str
  binaryOutput : Bool
  disk : Disk
  held : Nat
  asText : List TestResult → List Nat
  asBinary : List TestResult → List Nat

/-- How a command ends: the exit status, and what is in the output file if it was written.
Code: distbench_busybox.cc:147-229. -/
structure Exit where
  status : Nat
  output : Option (List Nat)
  deriving DecidableEq, Repr

/-- Saving the results, distbench_busybox.cc:214-226 (and 297-311). -/
def saveResults {Settings : Type} (r : RunTests Settings) (results : List TestResult) : Exit :=
  if r.outfile.isEmpty then { status := 0, output := none }
  else
    let saved := if r.binaryOutput then saveBinary r.disk r.held (r.asBinary results)
      else saveText r.disk (r.asText results)
    { status := if saved.ok then 0 else 1, output := saved.contents }

/-- `MainRunTests`, distbench_busybox.cc:147-229.  Simplification: the summaries it prints are not
represented here; see `standardOutput`. -/
def mainRunTests {Settings : Type} (r : RunTests Settings) : Outcome Exit :=
  match parseFile r.parsers r.infile with
  | none => .ok { status := 1, output := none }
  | some (tests, _) =>
    (Timeout.mainRunTests (wholeSeconds r.maxTestDuration) tests).bind fun
      | .error _ => .ok { status := 1, output := none }
      | .ok (sent, deadline) =>
        match r.answer sent deadline with
        | .error _ => .ok { status := 1, output := none }
        | .ok results => .ok (saveResults r results)

/-- Writing at an offset of a file.  Code: distbench_busybox.cc:206-226, distbench_utils.cc:405-415. -/
def writeAt (file : List Nat) (offset : Nat) (bytes : List Nat) : List Nat :=
  if bytes = [] then file
  else file.take offset ++ List.replicate (offset - file.length) 0 ++ bytes ++ file.drop (offset + bytes.length)

/-- What is in the regular file that standard output is redirected to, after `run_tests` with the
default `--outfile` of `/dev/stdout`, distbench_busybox.cc:38, 206-226: the summaries are printed
with `std::cout`, of which `flushed` bytes leave the buffer at once; then `/dev/stdout` is opened anew
with `O_TRUNC` (distbench_utils.cc:405) and the results are written from its start; the rest of the
summaries is written when the process exits, at the place where standard output had got to. -/
def standardOutput (summaries results : List Nat) (flushed : Nat) : List Nat :=
  let summariesOnly := writeAt [] 0 (summaries.take flushed)
  let truncated := summariesOnly.take 0
  let withResults := writeAt truncated 0 results
  writeAt withResults (summaries.take flushed).length (summaries.drop flushed)

/-! ### distbench test_preview -/

/-- The placement problem of a test in `test_preview`: `RunTestSequenceOnSingleNodeManager` and
`RunTestSequence` of `DistBenchTester`, distbench_test_sequencer_tester.cc:102-150.  The bundles
of the test are replaced by one with all service instances on node0, the only node; constraints are
left as they are. -/
def previewProblem (instances : List Str) (attributes : List Attribute)
    (constraints : List (Str × ConstraintList)) : Problem where
  services := instances
  nodes := [("node0".toList, attributes)]
  bundles := [("node0".toList, instances)]
  serviceConstraints := constraints

/-- What `RunTestSequence` of the tester needs to know of a test: the counts of its services, and
the numbers of services in its bundles.  Code: distbench_test_sequencer_tester.cc:104-119. -/
structure Needs where
  counts : List Nat
  bundles : List Nat

/-- `required_nodes` of one test, distbench_test_sequencer_tester.cc:106-115. -/
def requiredNodes (n : Needs) : Int := n.counts.sum - n.bundles.sum + n.bundles.length

/-- `max_required_nodes`, the number of nodes that are created,
distbench_test_sequencer_tester.cc:104-120. -/
def maxRequiredNodes (tests : List Needs) : Int :=
  tests.foldl (fun m t => if requiredNodes t > m then requiredNodes t else m) 0

/-- What `RunTestSequenceOnSingleNodeManager` makes of a test, in these terms,
distbench_test_sequencer_tester.cc:138-148: one bundle with all instances. -/
def previewNeeds (counts : List Nat) : Needs where
  counts := counts
  bundles := [counts.sum]

/-! ### Starting the servers -/

/-- What `NodeManager::Initialize` finds: the flag `--test_sequencer`, the interfaces of the host,
`--control_plane_device`, whether IPv4 is forced, whether its server could be started and on which
port, and whether the registration succeeded.  Code: distbench_node_manager.cc:287-369. -/
structure NodeStart where
  testSequencer : Str
  host : List Netutils.Interface
  device : Str
  ipv4 : Bool
  bound : Bool
  port : Int
  registered : Bool

/-- How a server goes on after it was started: it ends with a status, or it runs until it is asked
to shut down.  Code: distbench_busybox.cc:316-419. -/
inductive Started where
  | exits (status : Nat)
  | serves
  deriving DecidableEq, Repr

/-- `absl::StartsWith` for the two wild cards, distbench_node_manager.cc:315-316. -/
def isWildcard (address : Str) : Bool :=
  "[::]".toList.isPrefixOf address || "0.0.0.0".toList.isPrefixOf address

/-- `NodeManager::Initialize` and the rest of `MainNodeManager`, distbench_node_manager.cc:260-273,
287-369, distbench_busybox.cc:406-419.  Each failure calls `Shutdown`, so that `Wait` returns.
`.crash` is `value()` of an error, distbench_node_manager.cc:317-318. -/
def startNodeManager (n : NodeStart) : Outcome Started :=
  if n.testSequencer.isEmpty then .ok (.exits 1)
  else if !isWildcard (Netutils.getBindAddressFromPort n.ipv4 n.host n.device n.port) &&
      (Netutils.getBestAddress n.host n.device n.ipv4).isNone then .crash
  else if !n.bound then .ok (.exits 1)
  else if !n.registered then .ok (.exits 1)
  else .ok .serves

/-- A test sequencer process: whether its server was started, and `shutdown_requested_`.
Code: distbench_test_sequencer.cc:685-717. -/
structure SequencerProcess where
  listening : Bool
  shutdownRequested : Bool := false

/-- The steps of a test sequencer process, distbench_test_sequencer.cc:207-209, 679: it answers a
request that reaches it, which may ask to shut down afterwards. -/
inductive SequencerStep : SequencerProcess → SequencerProcess → Prop
  | request {s} (shutdown : Bool) : s.listening = true →
      SequencerStep s { s with shutdownRequested := s.shutdownRequested || shutdown }

/-- A test sequencer process after `TestSequencer::Initialize` and some steps.  Whether the server
could be started (`bound`) is not looked at.
Code: distbench_test_sequencer.cc:701-717, distbench_busybox.cc:316-351. -/
inductive SequencerLife (bound : Bool) : SequencerProcess → Prop
  | init : SequencerLife bound { listening := bound }
  | step {s s'} : SequencerLife bound s → SequencerStep s s' → SequencerLife bound s'

/-- Whether `Wait` has returned, after which the process exits with status 0; until then it has not
ended.  Code: distbench_test_sequencer.cc:685-691, distbench_busybox.cc:351-357. -/
def SequencerProcess.exitStatus (s : SequencerProcess) : Option Nat :=
  if s.shutdownRequested then some 0 else none

/-! ### Statuses -/

/-- A status of gRPC or Abseil: code and message; 0 is OK.  Code: distbench_utils.cc:139-160. -/
structure Stat where
  code : Nat
  message : Str
  deriving DecidableEq, Repr

/-- `grpcStatusToAbslStatus`, distbench_utils.cc:153-160. -/
def toAbsl (s : Stat) : Stat := if s.code = 0 then ⟨0, []⟩ else ⟨s.code, s.message⟩

/-- `absl::Status::code()`: codes that Abseil does not know are UNKNOWN.
Code: distbench_utils.cc:149. -/
def codeOf (s : Stat) : Nat := if s.code ≤ 16 then s.code else 2

/-- `abslStatusToGrpcStatus`, distbench_utils.cc:144-151. -/
def toGrpc (s : Stat) : Stat := if s.code = 0 then ⟨0, []⟩ else ⟨codeOf s, s.message⟩

end Distbench.Commands
