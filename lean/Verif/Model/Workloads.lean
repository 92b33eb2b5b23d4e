import Verif.Model.Builder

/-! Model of the scripts in workloads/, which run one test each: their options, the numbers in the text of
the test, and what distbench reads from it.  Not modelled: what the scripts print, and where they find
the program distbench. -/

namespace Distbench.Workloads
open Services Tables Builder

/-- The scripts, in the order workloads/clique_rpc_pattern.sh:1, workloads/multi_level_rpc_pattern.sh:1,
workloads/simple_client_server_rpc_pattern.sh:1, workloads/tripartite_rpc_pattern.sh:1 and
workloads/test_stochastic.sh:1. -/
inductive Script where
  | clique
  | multiLevel
  | clientServer
  | tripartite
  | stochastic
  deriving DecidableEq, Repr

/-! ### options -/

/-- The letters that `getopts` is given, workloads/clique_rpc_pattern.sh:58,
workloads/multi_level_rpc_pattern.sh:62, workloads/simple_client_server_rpc_pattern.sh:59,
workloads/tripartite_rpc_pattern.sh:55, workloads/test_stochastic.sh:50. -/
def letters : Script → Str
  | .clique => "h?vs:n:p:o:t:m:".toList
  | .multiLevel => "h?vs:r:l:p:o:t:q:".toList
  | .clientServer => "h?vs:c:i:p:o:t:".toList
  | .tripartite => "h?vs:c:i:l:p:".toList
  | .stochastic => "h?vs:c:i:p:".toList

/-- Whether a letter is an option (`none`: it is not), and whether it has an argument: the first place at
which it stands, and whether a colon follows.  Part of bash's `getopts`.
Code: workloads/clique_rpc_pattern.sh:58. -/
def lookup : Str → Char → Option Bool
  | [], _ => none
  | o :: rest, c => if o = c then some (rest.head? == some ':') else lookup rest c

/-- The options of one word after its dash, and the option that still needs its argument, if any.  An option
that there is not is reported as `?`.  Part of bash's `getopts`; a colon is never an option.
Code: workloads/clique_rpc_pattern.sh:58. -/
def cluster (os : Str) : Str → List (Char × Str) × Option Char
  | [] => ([], none)
  | c :: cs =>
    match if c = ':' then none else lookup os c with
    | none => (('?', []) :: (cluster os cs).1, (cluster os cs).2)
    | some false => ((c, []) :: (cluster os cs).1, (cluster os cs).2)
    | some true => if cs = [] then ([], some c) else ([(c, cs)], none)

/-- All options of the arguments, one after the other: up to a word `--` or one that does not begin with a dash
or is only a dash.  `pending` is the option whose argument is the next word.  This is bash's `getopts`.
Code: workloads/clique_rpc_pattern.sh:58. -/
def getopts (os : Str) : (pending : Option Char) → List Str → List (Char × Str)
  | none, [] => []
  | some _, [] => [('?', [])]
  | some c, a :: rest => (c, a) :: getopts os none rest
  | none, a :: rest =>
    match a with
    | ['-', '-'] => []
    | '-' :: c :: cs => (cluster os (c :: cs)).1 ++ getopts os (cluster os (c :: cs)).2 rest
    | _ => []

/-- The variables that the options set, workloads/clique_rpc_pattern.sh:59-78,
workloads/multi_level_rpc_pattern.sh:63-84, workloads/simple_client_server_rpc_pattern.sh:60-79,
workloads/tripartite_rpc_pattern.sh:56-73, workloads/test_stochastic.sh:51-66.  `-l` of tripartite has
no case; there is one for `r`, which is no option of it. -/
def targets : Script → List (Char × String)
  | .clique => [('v', "VERBOSE"), ('s', "SEQUENCER"), ('n', "NODE_COUNT"), ('p', "PROTOCOL_DRIVER"),
      ('o', "OUTPUT_FILE"), ('t', "TIME_SECONDS"), ('m', "SYNCHRONIZATION_MODE")]
  | .multiLevel => [('v', "VERBOSE"), ('s', "SEQUENCER"), ('r', "ROOT_COUNT"), ('l', "LEAF_COUNT"),
      ('p', "PROTOCOL_DRIVER"), ('o', "OUTPUT_FILE"), ('t', "TIME_SECONDS"), ('q', "QPS")]
  | .clientServer => [('v', "VERBOSE"), ('s', "SEQUENCER"), ('c', "CLIENT_COUNT"), ('i', "SERVER_COUNT"),
      ('p', "PROTOCOL_DRIVER"), ('o', "OUTPUT_FILE"), ('t', "TIME_SECONDS")]
  | .tripartite => [('v', "VERBOSE"), ('s', "SEQUENCER"), ('c', "CLIENT_COUNT"), ('i', "INDEX_COUNT"),
      ('r', "RESULT_COUNT"), ('p', "PROTOCOL_DRIVER")]
  | .stochastic => [('v', "VERBOSE"), ('s', "SEQUENCER"), ('c', "CLIENT_COUNT"), ('i', "SERVER_COUNT"),
      ('p', "PROTOCOL_DRIVER")]

/-- `${NAME:-default}`, workloads/clique_rpc_pattern.sh:31, workloads/multi_level_rpc_pattern.sh:31-33. -/
def orDefault (env : Str → Option Str) (name : String) (default_ : String) : Str :=
  match env name.toList with
  | none => default_.toList
  | some [] => default_.toList
  | some v => v

/-- The variables before the options are read, workloads/clique_rpc_pattern.sh:19-33,
workloads/multi_level_rpc_pattern.sh:19-33, workloads/simple_client_server_rpc_pattern.sh:19-34,
workloads/tripartite_rpc_pattern.sh:19-34, workloads/test_stochastic.sh:19-31. -/
def initial (env : Str → Option Str) : Script → Params
  | .clique => [("VERBOSE".toList, "0".toList), ("SEQUENCER".toList, "localhost:10000".toList),
      ("NODE_COUNT".toList, "10".toList), ("PROTOCOL_DRIVER".toList, "grpc".toList), ("OUTPUT_FILE".toList, []),
      ("TIME_SECONDS".toList, orDefault env "TIME_SECONDS" "30"),
      ("SYNCHRONIZATION_MODE".toList, "sync_burst".toList)]
  | .multiLevel => [("VERBOSE".toList, "0".toList), ("SEQUENCER".toList, "localhost:10000".toList),
      ("ROOT_COUNT".toList, "1".toList), ("LEAF_COUNT".toList, "3".toList), ("PROTOCOL_DRIVER".toList, "grpc".toList),
      ("OUTPUT_FILE".toList, []), ("TIME_SECONDS".toList, orDefault env "TIME_SECONDS" "30"),
      ("QPS".toList, orDefault env "QPS" "5000")]
  | .clientServer => [("VERBOSE".toList, "0".toList), ("SEQUENCER".toList, "localhost:10000".toList),
      ("CLIENT_COUNT".toList, "1".toList), ("SERVER_COUNT".toList, "1".toList),
      ("PROTOCOL_DRIVER".toList, "grpc".toList), ("OUTPUT_FILE".toList, []),
      ("TIME_SECONDS".toList, orDefault env "TIME_SECONDS" "30")]
  | .tripartite => [("VERBOSE".toList, "0".toList), ("SEQUENCER".toList, "localhost:10000".toList),
      ("CLIENT_COUNT".toList, "1".toList), ("INDEX_COUNT".toList, "1".toList), ("RESULT_COUNT".toList, "1".toList),
      ("PROTOCOL_DRIVER".toList, "grpc".toList)]
  | .stochastic => [("VERBOSE".toList, "0".toList), ("SEQUENCER".toList, "localhost:10000".toList),
      ("CLIENT_COUNT".toList, "1".toList), ("SERVER_COUNT".toList, "5".toList),
      ("PROTOCOL_DRIVER".toList, "grpc".toList)]

/-- The loop over the options; `none`: the usage is shown, and the script exits with status 0.
Code: workloads/clique_rpc_pattern.sh:58-79. -/
def readOptions (s : Script) : List (Char × Str) → Params → Option Params
  | [], p => some p
  | (c, a) :: rest, p =>
    if c = 'h' ∨ c = '?' then none
    else
      match (targets s).lookup c with
      | some v => readOptions s rest (p.set v.toList (if c = 'v' then "1".toList else a))
      | none => readOptions s rest p

/-! ### the test -/

/-- The number that `[` sees in a word: decimal, with an optional sign.  Simplification: white space around it
is refused.  Code: workloads/clique_rpc_pattern.sh:85. -/
def testNumber (t : Str) : Option Int :=
  match t with
  | '-' :: r => if allDigits r then (numeral 10 r 0).bind fun n => if n ≤ 2 ^ 63 then some (-n) else none else none
  | '+' :: r => if allDigits r then (numeral 10 r 0).bind fun n => if n < 2 ^ 63 then some n else none else none
  | r => if allDigits r then (numeral 10 r 0).bind fun n => if n < 2 ^ 63 then some n else none else none

/-- A value that a script puts between double quotes as it is, workloads/clique_rpc_pattern.sh:111, 125.
Simplification: a value with a quote, a backslash or a line break is refused (it would change the
structure of the text). -/
def quotedText (t : Str) : Outcome Str :=
  if t.any (fun c => c = '"' || c = '\\' || c = '\n') then .error "parse" else .ok t

/-- `--test_sequencer=$SEQUENCER` without quotes, workloads/clique_rpc_pattern.sh:105.  Simplification: a value
with blanks or pattern characters, which the shell would expand, is refused. -/
def unquoted (t : Str) : Outcome Str :=
  if t.any (fun c => c = ' ' || c = '\t' || c = '\n' || c = '*' || c = '?' || c = '[') then .error "not modelled"
  else .ok t

/-- A call of `distbench run_tests`: its flags and the test it reads.  `limit` is `--max_test_duration` in
seconds.  Code: workloads/clique_rpc_pattern.sh:105-150. -/
structure Call where
  sequencer : Str
  outfile : Option Str
  limit : Option Int
  protocol : Str
  test : Config

/-- `max_duration_us: ${TIME_SECONDS}000000`, workloads/clique_rpc_pattern.sh:123,
workloads/multi_level_rpc_pattern.sh:132, workloads/simple_client_server_rpc_pattern.sh:136. -/
def duration (p : Params) : Outcome Int := do
  let text ← get p "TIME_SECONDS"
  protoInt 32 (text ++ "000000".toList)

/-- `$(( TIME_SECONDS + 100 ))`, workloads/clique_rpc_pattern.sh:108, workloads/multi_level_rpc_pattern.sh:108,
workloads/simple_client_server_rpc_pattern.sh:101. -/
def limit (p : Params) : Outcome Int := do
  let text ← get p "TIME_SECONDS"
  let v ← arith text
  .ok (wrap64 (v + 100))

/-- The test of workloads/clique_rpc_pattern.sh:110-149. -/
def cliqueTest (p : Params) : Outcome Config := do
  let nodes ← number 32 p "NODE_COUNT"
  let us ← duration p
  let mode ← get p "SYNCHRONIZATION_MODE"
  let mode ← quotedText mode
  .ok {
    services := [{ name := "clique".toList, count := some nodes }]
    actionLists := [{ name := "clique".toList, actionNames := ["clique_queries".toList] },
      { name := "clique_query".toList }]
    actions := [{ name := "clique_queries".toList, kind := .rpc "clique_query".toList,
                  iterations := some { maxDurationUs := some us, openLoopIntervalNs := some 16000000,
                                       openLoopIntervalDistribution := mode } }]
    payloads := [payload "request_payload" 1024, payload "response_payload" 1024]
    rpcs := [plainRpc "clique_query" "clique" "clique" "all" "request_payload" "response_payload"] }

/-- The test of workloads/multi_level_rpc_pattern.sh:110-184, without its name (111). -/
def multiLevelTest (p : Params) : Outcome Config := do
  let roots ← number 32 p "ROOT_COUNT"
  let leaves ← number 32 p "LEAF_COUNT"
  let us ← duration p
  let qps ← get p "QPS"
  let ns ← quotient 1000000000 qps
  let _ ← quotedText qps
  .ok {
    services := [{ name := "load_balancer".toList, count := some 1 },
      { name := "root".toList, count := some roots }, { name := "leaf".toList, count := some leaves }]
    actionLists := [{ name := "load_balancer".toList,
                      actionNames := ["load_balancer/do_closed_loop_root_queries".toList] },
      { name := "root_query".toList, actionNames := ["root/root_query_fanout".toList], maxRpcSamples := 256 },
      { name := "leaf_query".toList }]
    actions := [{ name := "load_balancer/do_closed_loop_root_queries".toList, kind := .rpc "root_query".toList,
                  iterations := some { maxDurationUs := some us, openLoopIntervalNs := some ns } },
      { name := "root/root_query_fanout".toList, kind := .rpc "leaf_query".toList }]
    rpcs := [plainRpc "root_query" "load_balancer" "root" "round_robin" "root_request_payload"
        "root_response_payload",
      plainRpc "leaf_query" "root" "leaf" "all" "leaf_request_payload" "leaf_response_payload"]
    payloads := [payload "root_request_payload" 1024, payload "root_response_payload" 1024,
      payload "leaf_request_payload" 1024, payload "leaf_response_payload" 1024] }

/-- The test of workloads/simple_client_server_rpc_pattern.sh:103-144.  No fan-out filter is given. -/
def clientServerTest (p : Params) : Outcome Config := do
  let clients ← number 32 p "CLIENT_COUNT"
  let servers ← number 32 p "SERVER_COUNT"
  let us ← duration p
  .ok {
    services := [{ name := "client".toList, count := some clients },
      { name := "server".toList, count := some servers }]
    rpcs := [plainRpc "client_server_rpc" "client" "server" "all" "request_payload" "response_payload"]
    payloads := [payload "request_payload" 196, payload "response_payload" 262144]
    actionLists := [{ name := "client".toList, actionNames := ["run_queries".toList] },
      { name := "client_server_rpc".toList }]
    actions := [{ name := "run_queries".toList, kind := .rpc "client_server_rpc".toList,
                  iterations := some { maxDurationUs := some us, maxParallelIterations := 100 } }] }

/-- The test of workloads/tripartite_rpc_pattern.sh:93-170.  No fan-out filter is given. -/
def tripartiteTest (p : Params) : Outcome Config := do
  let clients ← number 32 p "CLIENT_COUNT"
  let indexes ← number 32 p "INDEX_COUNT"
  let results ← number 32 p "RESULT_COUNT"
  .ok {
    services := [{ name := "client".toList, count := some clients },
      { name := "index".toList, count := some indexes }, { name := "result".toList, count := some results }]
    rpcs := [plainRpc "client_index_rpc" "client" "index" "all" "request_payload" "response_payload",
      plainRpc "client_result_rpc" "client" "result" "all" "request_result_payload" "response_result_payload"]
    payloads := [payload "request_payload" 196, payload "response_payload" 1024,
      payload "request_result_payload" 64, payload "response_result_payload" 512]
    actionLists := [{ name := "client".toList, actionNames := ["client_do_many_queries".toList] },
      { name := "client_do_one_query".toList,
        actionNames := ["client_queryindex".toList, "client_queryresult".toList] },
      { name := "client_index_rpc".toList }, { name := "client_result_rpc".toList }]
    actions := [{ name := "client_do_many_queries".toList, kind := .actionList "client_do_one_query".toList,
                  iterations := some { maxIterationCount := some 10 } },
      { name := "client_queryindex".toList, kind := .rpc "client_index_rpc".toList },
      { name := "client_queryresult".toList, kind := .rpc "client_result_rpc".toList,
        dependencies := ["client_queryindex".toList] }] }

/-- The test of workloads/test_stochastic.sh:85-126. -/
def stochasticTest (p : Params) : Outcome Config := do
  let clients ← number 32 p "CLIENT_COUNT"
  let servers ← number 32 p "SERVER_COUNT"
  .ok {
    services := [{ name := "client".toList, count := some clients },
      { name := "server".toList, count := some servers }]
    rpcs := [plainRpc "client_server_rpc" "client" "server" "stochastic{0.7:1,0.3:4}" "request_payload"
      "response_payload"]
    payloads := [payload "request_payload" 196, payload "response_payload" 262144]
    actionLists := [{ name := "client".toList, actionNames := ["run_queries".toList] },
      { name := "client_server_rpc".toList }]
    actions := [{ name := "run_queries".toList, kind := .rpc "client_server_rpc".toList,
                  iterations := some { maxIterationCount := some 100 } }] }

/-- The test of a script, workloads/clique_rpc_pattern.sh:110-149. -/
def testOf (p : Params) : Script → Outcome Config
  | .clique => cliqueTest p
  | .multiLevel => multiLevelTest p
  | .clientServer => clientServerTest p
  | .tripartite => tripartiteTest p
  | .stochastic => stochasticTest p

/-- Whether a script limits the duration of the test and names a file for the results,
workloads/clique_rpc_pattern.sh:105-108; workloads/tripartite_rpc_pattern.sh:91 and
workloads/test_stochastic.sh:83 do neither. -/
def limits : Script → Bool
  | .clique => true
  | .multiLevel => true
  | .clientServer => true
  | .tripartite => false
  | .stochastic => false

/-- The call of distbench at the end of a script, workloads/clique_rpc_pattern.sh:105-150,
workloads/tripartite_rpc_pattern.sh:91-171.  An error is one of the shell, or one that distbench finds
when it reads the test: either way no test is run, and the status is 1. -/
def callOf (s : Script) (p : Params) : Outcome Call := do
  let sequencer ← get p "SEQUENCER"
  let sequencer ← unquoted sequencer
  let protocol ← get p "PROTOCOL_DRIVER"
  let protocol ← quotedText protocol
  let test ← testOf p s
  if limits s then do
    let file ← get p "OUTPUT_FILE"
    let seconds ← limit p
    .ok { sequencer := sequencer, outfile := some file, limit := some seconds, protocol := protocol, test := test }
  else .ok { sequencer := sequencer, outfile := none, limit := none, protocol := protocol, test := test }

/-- How a script ends: with its usage (status 0), with its usage because of a wrong number of nodes (status 1),
without a test (status 1), or with the status of `distbench run_tests`.
Code: workloads/clique_rpc_pattern.sh:58-150. -/
inductive Ending where
  | help
  | refused
  | failed
  | runs (call : Call)

/-- A script: the environment and the arguments.  Only clique checks a number
(workloads/clique_rpc_pattern.sh:85-89); a word that is no number passes.
Code: workloads/clique_rpc_pattern.sh:17-150. -/
def run (s : Script) (env : Str → Option Str) (arguments : List Str) : Ending :=
  match readOptions s (getopts (letters s) none arguments) (initial env s) with
  | none => .help
  | some p =>
    if s = .clique ∧ ((p.find "NODE_COUNT".toList).bind testNumber).any (· ≤ 1) then .refused
    else
      match callOf s p with
      | .ok call => .runs call
      | _ => .failed

/-- The exit status; `status` is that of `distbench run_tests`.  Code: workloads/clique_rpc_pattern.sh:62, 88, 105. -/
def exitStatus (status : Call → Nat) : Ending → Nat
  | .help => 0
  | .refused => 1
  | .failed => 1
  | .runs call => status call

end Distbench.Workloads
