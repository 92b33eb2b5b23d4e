import Verif.Model.Sequencer
import Verif.Model.Fanout
import Verif.Model.Tables

/-! Model of the commands of the `distbench` binary: the arguments of `distbench node_manager` and
the verdict of `distbench check_test` (distbench_busybox.cc, distbench_node_manager.cc). -/

namespace Distbench.Cli
open Services Placement Tables

/-! ### distbench node_manager -/

/-- `strncmp(argument, "node", 4) == 0`, distbench_busybox.cc:364. -/
def beginsWithNode (argument : Str) : Bool := "node".toList.isPrefixOf argument

/-- The first argument when it begins with "node", distbench_busybox.cc:365-373; `none` is the exit
with status 1. -/
def preassignedId (argument : Str) : Option Int :=
  match Fanout.simpleAtoi32 (argument.drop 4) with
  | none => none
  | some id =>
    if "node".toList ++ showInt id ≠ argument ∨ id < 0 then none else some id

/-- `absl::StrSplit(argument, absl::MaxSplits('=', 1))`: one or two parts.
Code: distbench_busybox.cc:360-421. -/
def splitOnce (argument : Str) : List Str :=
  match argument.dropWhile (· ≠ '=') with
  | [] => [argument]
  | _ :: value => [argument.takeWhile (· ≠ '='), value]

/-- The loop over the remaining arguments, distbench_busybox.cc:384-395; `none` is the exit with
status 1. -/
def parseAttributes : List Str → List Attribute → Option (List Attribute)
  | [], attributes => some attributes
  | argument :: rest, attributes =>
    match splitOnce argument with
    | [name, value] => parseAttributes rest (attributes ++ [⟨name, value⟩])
    | _ => none

/-- What `MainNodeManager` puts into `preassigned_node_id` and `attributes` of its options,
distbench_busybox.cc:359-401; `none` is the exit with status 1.  Simplification: the arguments are
those left after the flags were removed, and contain no NUL. -/
def nodeManagerArguments (arguments : List Str) : Option (Int × List Attribute) :=
  match arguments with
  | [] => some (-1, [])
  | first :: rest =>
    if beginsWithNode first then
      match preassignedId first with
      | none => none
      | some id =>
        (parseAttributes rest [⟨"node_alias".toList, first⟩]).map fun attributes => (id, attributes)
    else (parseAttributes (first :: rest) []).map fun attributes => (-1, attributes)

/-- Where a node manager runs: `Hostname()`, the port its server got, the address of the control
plane device if it is not a wild card, and the address it can be reached at.
Code: distbench_node_manager.cc:287-312. -/
structure Place where
  hostname : Str
  port : Int
  controlIp : Option Str
  serviceAddress : Str

/-- The registration that `NodeManager::Initialize` sends, distbench_node_manager.cc:313-347. -/
def registrationOf (place : Place) (id : Int) (attributes : List Attribute) : Sequencer.Registration where
  hostname := place.hostname
  controlIp := place.controlIp
  controlPort := place.port
  serviceAddress := place.serviceAddress
  attributes := attributes
  preassigned := id

/-! ### distbench check_test -/

/-- The loop of `GetCanonicalTestSequence`, distbench_utils.cc:806-812; `ValidateTestsSetting`
accepts everything. -/
def canonicalSequence : List Tables.Config → Outcome (List Tables.Config)
  | [] => .ok []
  | test :: rest => do
    let c ← canonicalDescription test
    let cs ← canonicalSequence rest
    .ok (c :: cs)

/-- The loop over the tests of `MainCheckTest`, distbench_busybox.cc:254-260. -/
def validateTests (e : Env) : List Tables.Config → Outcome Unit
  | [] => .ok ()
  | test :: rest => do
    validateTrafficConfig e test
    validateTests e rest

/-- `MainCheckTest` after the file is read, distbench_busybox.cc:241-262.  `.ok` is exit status 0,
`.error` exit status 1.  The tests that are validated are those of the file, not the canonical
ones. -/
def checkTest (e : Env) (tests : List Tables.Config) : Outcome Unit := do
  let _ ← canonicalSequence tests
  validateTests e tests

end Distbench.Cli
