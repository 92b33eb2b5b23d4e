import Verif.Model.Workloads

/-! start_distbench_localhost.sh: its options and the processes that it starts. -/

namespace Distbench.LocalStart

/-- The letters that `getopts` is given, start_distbench_localhost.sh:60. -/
def letters : Str := "h?vdn:c:".toList

/-- The variables that the options set, start_distbench_localhost.sh:41-45. -/
structure Vars where
  verbose : Bool := false
  debug : Bool := false
  nodes : Str := "1".toList
  compile : Str := "-c opt".toList
  deriving DecidableEq, Repr

/-- The loop over the options, start_distbench_localhost.sh:60-75; `none`: the usage is shown and the
script exits with status 0. -/
def readOptions : List (Char × Str) → Vars → Option Vars
  | [], v => some v
  | (c, a) :: rest, v =>
    if c = 'h' ∨ c = '?' then none
    else if c = 'v' then readOptions rest { v with verbose := true }
    else if c = 'd' then readOptions rest { v with debug := true }
    else if c = 'n' then readOptions rest { v with nodes := a }
    else if c = 'c' then readOptions rest { v with compile := a }
    else readOptions rest v

/-- A process that the script starts in the background: the test sequencer with its port and its
`--local_nodes`, or a node manager with the port of its sequencer and its own,
start_distbench_localhost.sh:107-119. -/
inductive Proc where
  | sequencer (port : Int) (localNodes : Option Str)
  | nodeManager (sequencer port : Int)
  deriving DecidableEq, Repr

/-- `seq 1 1 N`, start_distbench_localhost.sh:111; a text that is no number gives nothing.
Simplification: only whole numbers are numbers. -/
def seq (n : Str) : List Int :=
  match Workloads.testNumber n with
  | some k => (List.range k.toNat).map fun i : Nat => (i : Int) + 1
  | none => []

/-- The processes that are started, start_distbench_localhost.sh:107-119. -/
def processes (v : Vars) : List Proc :=
  if v.debug then
    .sequencer 10000 none :: (seq v.nodes).map fun i => .nodeManager 10000 (9999 - i)
  else [.sequencer 10000 (some v.nodes)]

/-- How the script ends or goes on: with its usage (status 0), with an error status, or it runs until
all processes have ended, start_distbench_localhost.sh:18-36, 62-64, 123-135. -/
inductive Ending where
  | usage
  | error (status : Nat) (started : List Proc)
  | running (procs : List Proc)
  deriving DecidableEq, Repr

/-- The script, start_distbench_localhost.sh:17-135.  `bazel`: the tool is there; `builds`: it builds
distbench; `answers`: the status of `run_tests` with an empty test is zero. -/
def script (bazel builds answers : Bool) (arguments : List Str) : Ending :=
  match readOptions (Workloads.getopts letters none arguments) {} with
  | none => .usage
  | some v =>
    if !bazel then .error 1 []
    else if !builds then .error 2 []
    else if answers then .running (processes v)
    else .error 3 (processes v)

end Distbench.LocalStart
