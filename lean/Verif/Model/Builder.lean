import Verif.Model.Cli
import Verif.Model.Drivers

/-! Model of the tool that writes test sequences (test_builder/test_builder, a bash script): its
parameters, protocol drivers, traffic patterns, sweeps, and what it does with results that exist
already.  The two parameters `protocol_driver_options_proto` and `traffic_pattern_options_proto`, which
hold text that is computed from the others, are left out: `driverOptions` and `traffic` say what
distbench reads from them. -/

namespace Distbench.Builder
open Services Tables

/-- An associative array of parameters (`params_dict`), as a list with unique keys; the order of its keys
means nothing.  Code: test_builder/test_builder:379-389. -/
abbrev Params := List (Str × Str)

/-- `${params_dict[key]}` if it is set.  Code: test_builder/test_builder:545-577. -/
def Params.find : Params → Str → Option Str
  | [], _ => none
  | (k, v) :: rest, key => if k = key then some v else Params.find rest key

/-- `params_dict[key]=value`.  Code: test_builder/test_builder:389, 449. -/
def Params.set : Params → Str → Str → Params
  | [], key, value => [(key, value)]
  | (k, v) :: rest, key, value =>
    if k = key then (k, value) :: rest else (k, v) :: Params.set rest key value

/-- Several assignments, one after the other.  Code: test_builder/test_builder:1013-1015. -/
def Params.setAll (p : Params) : List (Str × Str) → Params
  | [] => p
  | (k, v) :: rest => (p.set k v).setAll rest

/-- Whether two arrays have the same contents.  Code: test_builder/test_builder:558-569 (`diff` of the two texts,
which list all parameters and are otherwise computed from them). -/
def sameParams (p q : Params) : Bool :=
  (p ++ q).all fun x => p.find x.1 == q.find x.1

/-- `"${params_dict[key]}"` where unset variables are errors, test_builder/test_builder:217 (`set -u`). -/
def get (p : Params) (key : String) : Outcome Str :=
  match p.find key.toList with
  | some v => .ok v
  | none => .error "unbound variable"

/-! ### numbers -/

/-- The value of a digit in a base up to 16, as bash and the protobuf text format read it.
Code: test_builder/test_builder:305. -/
def digitValue (base : Nat) (c : Char) : Option Nat :=
  let v := if '0' ≤ c ∧ c ≤ '9' then c.toNat - 48
    else if 'a' ≤ c ∧ c ≤ 'f' then c.toNat - 87
    else if 'A' ≤ c ∧ c ≤ 'F' then c.toNat - 55
    else 16
  if v < base then some v else none

/-- The value of a row of digits.  Code: test_builder/test_builder:305. -/
def numeral (base : Nat) : Str → Nat → Option Nat
  | [], acc => some acc
  | c :: cs, acc =>
    match digitValue base c with
    | some d => numeral base cs (acc * base + d)
    | none => none

/-- A number without sign: with `0x` hexadecimal, with another leading zero octal, else decimal.  This is
so in bash (`$((…))`, `-lt`, `local -i`; test_builder/test_builder:305, 989, 1028) and in the protobuf
text format (library contract). -/
def literal (t : Str) : Option Nat :=
  match t with
  | [] => none
  | '0' :: 'x' :: r => if r = [] then none else numeral 16 r 0
  | '0' :: 'X' :: r => if r = [] then none else numeral 16 r 0
  | '0' :: r => numeral 8 r 0
  | _ => numeral 10 t 0

/-- 64-bit wrap-around of bash arithmetic.  Code: test_builder/test_builder:990, 1028. -/
def wrap64 (n : Int) : Int := (n + 2 ^ 63) % 2 ^ 64 - 2 ^ 63

/-- The value of a text in bash arithmetic, test_builder/test_builder:989, 1028, 1165.  Simplification: only
numbers with an optional minus sign, and the empty text, which is 0; expressions are refused. -/
def arith (t : Str) : Outcome Int :=
  match t with
  | [] => .ok 0
  | '-' :: r =>
    match literal r with
    | some n => .ok (wrap64 (-n))
    | none => .error "arithmetic"
  | _ =>
    match literal t with
    | some n => .ok (wrap64 n)
    | none => .error "arithmetic"

/-- A row of decimal digits.  Code: test_builder/test_builder:298 (`tr -d [0-9]`).  Simplification: white space
around the digits, which the script lets pass, is refused. -/
def allDigits (t : Str) : Bool := t ≠ [] && t.all fun c => '0' ≤ c && c ≤ '9'

/-- `validate_integer`, test_builder/test_builder:292-310.  A text with a leading zero and the digit 8 or 9 is
no number for `-lt`: the comparison fails, and the text passes. -/
def validateInteger (minimum : Int) (t : Str) : Outcome Unit :=
  if allDigits t then
    match arith t with
    | .ok v => if v < minimum then .error "exit 6" else .ok ()
    | _ => .ok ()
  else .error "exit 5"

/-- An integer field of the protobuf text format, with range check (library contract).  The text comes
from test_builder/test_builder:1017-1057. -/
def protoInt (bits : Nat) (t : Str) : Outcome Int :=
  match t with
  | '-' :: r =>
    match literal r with
    | some n => if n ≤ 2 ^ (bits - 1) then .ok (-n) else .error "parse"
    | none => .error "parse"
  | _ =>
    match literal t with
    | some n => if n < 2 ^ (bits - 1) then .ok n else .error "parse"
    | none => .error "parse"

/-- A value that the script puts between single quotes as it is, test_builder/test_builder:1017, 1031.
Simplification: a value with a quote, a backslash or a line break is refused (it would change the
structure of the text). -/
def protoString (t : Str) : Outcome Str :=
  if t.any (fun c => c = '\'' || c = '\\' || c = '\n') then .error "parse" else .ok t

/-! ### configuration strings -/

/-- The names of the protocol drivers that the script defines, test_builder/test_builder:777, 848, 908. -/
def protocolNames : List Str := ["grpc".toList, "mercury".toList, "homa".toList]

/-- The names of the traffic patterns that the script defines, test_builder/test_builder:988, 1147, 1229, 1298,
1402, 1501.  Left out: homa_cp_node (1074-1138), which exists only where the program dist_to_proto is
installed. -/
def patternNames : List Str :=
  ["clique".toList, "rectangular".toList, "client_server".toList, "tripartite".toList,
   "multi_level_rpc".toList, "variable_response_multi_level_rpc".toList]

/-- `readarray -d = -t`, test_builder/test_builder:507: an empty text at the end is no element. -/
def fieldsAt (sep : Char) (t : Str) : List Str :=
  let fs := Fanout.strSplit sep t
  if fs.getLast? = some [] then fs.dropLast else fs

/-- One part of a configuration string, test_builder/test_builder:504-531.  `files`: the contents of files. -/
def parsePart (files : Str → Option Str) (p : Params) (part : Str) : Outcome Params :=
  match fieldsAt '=' part with
  | [key, value] =>
    if key = [] then .error "bad array subscript"
    else
      match value with
      | '<' :: file =>
        match files file with
        | some contents => .ok (p.set key contents)
        | none => .error "exit 15"
      | _ => .ok (p.set key value)
  | _ =>
    if part ∈ protocolNames then .ok (p.set "protocol_driver".toList part)
    else if part ∈ patternNames then .ok (p.set "traffic_pattern".toList part)
    else if part = "ipv6".toList then
      .ok (p.setAll [("ip_version".toList, "6".toList), ("ip_version_string".toList, "ipv6".toList)])
    else if part = "ipv4".toList then
      .ok (p.setAll [("ip_version".toList, "4".toList), ("ip_version_string".toList, "ipv4".toList)])
    else .error "exit 11"

/-- The loop over the parts, test_builder/test_builder:504-532. -/
def parseParts (files : Str → Option Str) : Params → List Str → Outcome Params
  | p, [] => .ok p
  | p, part :: rest => do
    let q ← parsePart files p part
    parseParts files q rest

/-- `parse_params_dict_from_config_string`, test_builder/test_builder:496-533. -/
def parseConfig (files : Str → Option Str) (p : Params) (config : Str) : Outcome Params :=
  parseParts files p (Fanout.strSplit ':' config)

/-- `set_parameter_default`, test_builder/test_builder:747-761, except when usage is printed. -/
def setDefault (p : Params) (key value : String) : Params :=
  match p.find key.toList with
  | some _ => p
  | none => if value = "" then p else p.set key.toList value.toList

/-- Several defaults, one after the other.  Code: test_builder/test_builder:992-997. -/
def setDefaults (p : Params) : List (String × String) → Params
  | [] => p
  | (k, v) :: rest => setDefaults (setDefault p k v) rest

/-! ### protocol drivers -/

/-- The part of the alias that names the IP version, test_builder/test_builder:789-791. -/
def ipSuffix (p : Params) : Str :=
  match p.find "ip_version".toList with
  | some v => "_ipv".toList ++ v
  | none => []

/-- `grpc_protocol_driver_setup`, test_builder/test_builder:777-839, but for the text of the options, which is
computed by `grpcOptions`. -/
def grpcSetup (p : Params) : Outcome Params := do
  let p := setDefaults p [("client_type", "polling"), ("server_type", "inline"),
    ("threadpool_type", ""), ("threadpool_size", "0"), ("transport", "")]
  let client ← get p "client_type"
  let server ← get p "server_type"
  let size ← get p "threadpool_size"
  let pool := (p.find "threadpool_type".toList).getD []
  let transport := (p.find "transport".toList).getD []
  let poolPart := if server = "inline".toList then []
    else (if pool = [] then [] else '_' :: pool) ++ (if size = "0".toList then [] else '_' :: size)
  .ok (p.setAll [
    ("protocol_alias".toList, "grpc_".toList ++ client ++ '_' :: server ++ ipSuffix p ++ poolPart ++
      (if transport = [] then [] else '_' :: transport)),
    ("protocol_driver".toList, "grpc".toList)])

/-- `mercury_protocol_driver_setup`, test_builder/test_builder:848-898. -/
def mercurySetup (p : Params) : Outcome Params := do
  let p := setDefaults p [("threadpool_type", ""), ("threadpool_size", "0"), ("transport", "ofi+tcp")]
  let size ← get p "threadpool_size"
  let transport ← get p "transport"
  let pool := (p.find "threadpool_type".toList).getD []
  .ok (p.setAll [
    ("protocol_alias".toList, "mercury_".toList ++ transport ++ ipSuffix p ++
      (if pool = [] then [] else '_' :: pool) ++ (if size = "0".toList then [] else '_' :: size)),
    ("protocol_driver".toList, "mercury".toList)])

/-- `homa_protocol_driver_setup`, test_builder/test_builder:908-978. -/
def homaSetup (p : Params) : Outcome Params := do
  let p := setDefaults p [("threadpool_type", ""), ("threadpool_size", "0"), ("client_threads", "1"),
    ("server_threads", "1"), ("nocopy", "1"), ("ping_pong", "0")]
  let size ← get p "threadpool_size"
  let clients ← get p "client_threads"
  let servers ← get p "server_threads"
  let nocopy ← get p "nocopy"
  let pingPong ← get p "ping_pong"
  let pool := (p.find "threadpool_type".toList).getD []
  validateInteger 1 clients
  validateInteger 1 servers
  validateInteger 0 size
  validateInteger 0 nocopy
  validateInteger 0 pingPong
  let mode := if pingPong ≠ "0".toList then "_pingpong".toList
    else if nocopy ≠ "0".toList then "_nocopy".toList else []
  .ok (p.setAll [
    ("protocol_driver".toList, "homa".toList),
    ("protocol_alias".toList, "homa".toList ++ mode ++ ipSuffix p ++ '_' :: servers ++ 'x' :: clients ++
      'x' :: size ++ (if pool = [] then [] else '_' :: pool))])

/-- The function that is called for a protocol driver, test_builder/test_builder:546, 550; other names are no
commands. -/
def protocolSetup (p : Params) : Outcome Params :=
  let name := match p.find "protocol_driver".toList with
    | some [] => "grpc".toList
    | some n => n
    | none => "grpc".toList
  if name = "grpc".toList then grpcSetup p
  else if name = "mercury".toList then mercurySetup p
  else if name = "homa".toList then homaSetup p
  else .error "command not found"

/-! ### traffic patterns: parameters and names -/

/-- The first lines of every traffic pattern, test_builder/test_builder:989-990: the duration, and the attribute
computed from it (120 is RESULTS_COLLECTION_TIMEOUT, 235). -/
def withTimeout (p : Params) : Outcome Params := do
  let text ← get p "test_duration"
  let d ← arith text
  .ok (p.set "test_timeout".toList (showInt (wrap64 (d + 120))))

/-- The attributes that name a test, test_builder/test_builder:1011-1015; `suffix` is not empty for one pattern
(1531). -/
def named (p : Params) (pattern : String) (alias_ suffix : Str) : Outcome Params := do
  let protocol ← get p "protocol_alias"
  .ok (p.setAll [("traffic_pattern".toList, pattern.toList), ("traffic_alias".toList, alias_),
    ("test_name".toList, alias_ ++ '-' :: protocol ++ suffix)])

/-- The defaults of the pattern clique, test_builder/test_builder:992-997. -/
def cliqueDefaults : List (String × String) :=
  [("rpc_interval_us", "16000"), ("node_count", "10"), ("synchronization_mode", "sync_burst"),
   ("request_size", "1024"), ("response_size", "1024")]

/-- `clique_traffic_pattern_setup`, test_builder/test_builder:988-1015, 1032 (the last is the division). -/
def cliqueSetup (p : Params) : Outcome Params := do
  let p ← withTimeout p
  let p := setDefaults p cliqueDefaults
  let request ← get p "request_size"
  let response ← get p "response_size"
  let interval ← get p "rpc_interval_us"
  let nodes ← get p "node_count"
  let mode ← get p "synchronization_mode"
  validateInteger 100 interval
  validateInteger 2 nodes
  let _ ← arith interval
  named p "clique" ("clique_".toList ++ mode ++ '_' :: nodes ++ 'x' :: interval ++ 'x' :: request ++
    'x' :: response) []

/-- The defaults of the pattern rectangular, test_builder/test_builder:1151-1158. -/
def rectangularDefaults : List (String × String) :=
  [("rpc_interval_us", "100000"), ("x_size", "5"), ("y_size", "3"), ("synchronization_mode", "sync_burst"),
   ("request_size", "1024"), ("response_size", "1024"), ("fanout_filter", "ring_x"),
   ("tracing_interval", "0")]

/-- `$((X_SIZE * Y_SIZE))`, test_builder/test_builder:1164. -/
def product (x y : Str) : Outcome Int := do
  let a ← arith x
  let b ← arith y
  .ok (wrap64 (a * b))

/-- `rectangular_traffic_pattern_setup`, test_builder/test_builder:1147-1175, 1194. -/
def rectangularSetup (p : Params) : Outcome Params := do
  let p ← withTimeout p
  let p := setDefaults p rectangularDefaults
  let request ← get p "request_size"
  let response ← get p "response_size"
  let interval ← get p "rpc_interval_us"
  let x ← get p "x_size"
  let y ← get p "y_size"
  let nodes ← product x y
  let filter ← get p "fanout_filter"
  let _ ← get p "tracing_interval"
  validateInteger 100 interval
  validateInteger 2 (showInt nodes)
  let _ ← arith interval
  let mode ← get p "synchronization_mode"
  named p "rectangular" ("rectangular_".toList ++ filter ++ '_' :: mode ++ '_' :: x ++ 'x' :: y ++
    'x' :: interval ++ 'x' :: request ++ 'x' :: response) []

/-- The defaults of the pattern client_server, test_builder/test_builder:1233-1235. -/
def clientServerDefaults : List (String × String) :=
  [("parallel_queries", "100"), ("client_count", "1"), ("server_count", "1")]

/-- `client_server_traffic_pattern_setup`, test_builder/test_builder:1229-1246. -/
def clientServerSetup (p : Params) : Outcome Params := do
  let p ← withTimeout p
  let p := setDefaults p clientServerDefaults
  let parallel ← get p "parallel_queries"
  let clients ← get p "client_count"
  let servers ← get p "server_count"
  validateInteger 1 parallel
  validateInteger 1 clients
  validateInteger 1 servers
  named p "client_server" ("client_server_".toList ++ clients ++ 'x' :: servers ++ 'x' :: parallel) []

/-- The defaults of the pattern tripartite, test_builder/test_builder:1302-1304. -/
def tripartiteDefaults : List (String × String) :=
  [("client_count", "1"), ("index_count", "1"), ("data_count", "10")]

/-- `tripartite_traffic_pattern_setup`, test_builder/test_builder:1298-1313. -/
def tripartiteSetup (p : Params) : Outcome Params := do
  let p ← withTimeout p
  let p := setDefaults p tripartiteDefaults
  let clients ← get p "client_count"
  let indexes ← get p "index_count"
  let datas ← get p "data_count"
  validateInteger 1 clients
  validateInteger 1 indexes
  validateInteger 1 datas
  named p "tripartite" ("tripartite_".toList ++ clients ++ 'x' :: indexes ++ 'x' :: datas) []

/-- The defaults of the pattern multi_level_rpc, test_builder/test_builder:1406-1408. -/
def multiLevelDefaults : List (String × String) :=
  [("qps", "10000"), ("root_count", "4"), ("leaf_count", "20")]

/-- A division by a number that was validated to be at least 1, test_builder/test_builder:1442-1443; bash refuses
to divide by 0, which a number that wraps around may be. -/
def quotient (n : Int) (text : Str) : Outcome Int := do
  let v ← arith text
  if v = 0 then .error "division by 0" else .ok (n.tdiv v)

/-- `multi_level_rpc_traffic_pattern_setup`, test_builder/test_builder:1402-1417, 1442-1443. -/
def multiLevelSetup (p : Params) : Outcome Params := do
  let p ← withTimeout p
  let p := setDefaults p multiLevelDefaults
  let qps ← get p "qps"
  let roots ← get p "root_count"
  let leaves ← get p "leaf_count"
  validateInteger 1 qps
  validateInteger 1 roots
  validateInteger 1 leaves
  let _ ← quotient 1000000000 qps
  named p "multi_level_rpc" ("multi_level_rpc_".toList ++ roots ++ 'x' :: leaves ++ 'x' :: qps) []

/-- The sizes of the pattern variable_response_multi_level_rpc, test_builder/test_builder:1508-1522: the
parameters with defaults, the lower and the upper size. -/
def responseSizes (p : Params) : Outcome (Params × Str × Str) :=
  match p.find "exact_size".toList with
  | some (c :: cs) =>
    if (p.find "lower_size".toList).isSome ∨ (p.find "upper_size".toList).isSome then .error "exit 14"
    else .ok (p, c :: cs, c :: cs)
  | _ => do
    let p := setDefaults p [("lower_size", "1024"), ("upper_size", "64000")]
    let lower ← get p "lower_size"
    let upper ← get p "upper_size"
    .ok (p, lower, upper)

/-- The lower and the upper size, test_builder/test_builder:1514-1522. -/
def sizeTexts (p : Params) : Outcome (Str × Str) := do
  let (_, lower, upper) ← responseSizes p
  .ok (lower, upper)

/-- `variable_response_multi_level_rpc_traffic_pattern_setup`, test_builder/test_builder:1501-1533, 1558-1560. -/
def variableSetup (p : Params) : Outcome Params := do
  let p ← withTimeout p
  let p := setDefaults p multiLevelDefaults
  let (p, lower, upper) ← responseSizes p
  let qps ← get p "qps"
  let roots ← get p "root_count"
  let leaves ← get p "leaf_count"
  validateInteger 1 qps
  validateInteger 1 roots
  validateInteger 1 leaves
  validateInteger 1 lower
  validateInteger 1 upper
  let _ ← quotient 1000000000 qps
  named p "variable_response_multi_level_rpc"
    ("variable_response_multi_level_rpc_".toList ++ roots ++ 'x' :: leaves ++ 'x' :: qps)
    ('-' :: lower ++ '-' :: upper)

/-- The function that is called for a traffic pattern, test_builder/test_builder:547, 551; other names are no
commands. -/
def patternSetup (pattern : Str) (p : Params) : Outcome Params :=
  if pattern = "clique".toList then cliqueSetup p
  else if pattern = "rectangular".toList then rectangularSetup p
  else if pattern = "client_server".toList then clientServerSetup p
  else if pattern = "tripartite".toList then tripartiteSetup p
  else if pattern = "multi_level_rpc".toList then multiLevelSetup p
  else if pattern = "variable_response_multi_level_rpc".toList then variableSetup p
  else .error "command not found"

/-- The final parameters of a test, test_builder/test_builder:545-551. -/
def finish (p : Params) : Outcome Params := do
  let pattern ← get p "traffic_pattern"
  let p ← protocolSetup p
  patternSetup pattern p

/-! ### sequences of tests -/

/-- A test of the sequence: `test_names` and `test_sequence_protos`.  The text of the test is a function
of the parameters.  Code: test_builder/test_builder:553-577, 587-612. -/
structure Test where
  name : Str
  params : Params
  deriving DecidableEq

/-- The flags, test_builder/test_builder:231-259, and the files that values may name (510-512). -/
structure Flags where
  labelPrefix : Str := []
  configPrefix : Str := []
  duration : Str := "30".toList
  files : Str → Option Str := fun _ => none

/-- `test_sequence_protos[name]`: the last test with that name.  Code: test_builder/test_builder:557. -/
def lastNamed (tests : List Test) (name : Str) : Option Test :=
  tests.reverse.find? fun t => t.name = name

/-- `convert_params_dict_to_test_config_proto`, test_builder/test_builder:545-577. -/
def addTest (tests : List Test) (p : Params) : Outcome (List Test) := do
  let q ← finish p
  let name ← get q "test_name"
  match lastNamed tests name with
  | some old => if sameParams old.params q then .ok (tests ++ [⟨name, q⟩]) else .error "exit 12"
  | none => .ok (tests ++ [⟨name, q⟩])

/-- `CONFIG_PREFIX`, with a colon after it unless it is empty, test_builder/test_builder:248. -/
def prefixed (f : Flags) (config : Str) : Str :=
  if f.configPrefix = [] then config else f.configPrefix ++ ':' :: config

/-- `build_config_test_protos`, test_builder/test_builder:470-487. -/
def buildConfigs (f : Flags) (base : Params) : List Str → List Test → Outcome (List Test)
  | [], tests => .ok tests
  | config :: rest, tests => do
    let p ← parseConfig f.files base (prefixed f config)
    let tests ← addTest tests (p.set "config_label".toList (f.labelPrefix ++ config))
    buildConfigs f base rest tests

/-- `seq start step end` for whole numbers (library contract), test_builder/test_builder:431: `none` is an
error. -/
def sequence (start step stop : Int) : Option (List Int) :=
  if step = 0 then none
  else if 0 < step then
    some ((List.range ((stop - start) / step + 1).toNat).map fun (i : Nat) => start + step * i)
  else
    some ((List.range ((start - stop) / -step + 1).toNat).map fun (i : Nat) => start + step * i)

/-- The parameters that one value of a sweep sets, test_builder/test_builder:443-452. -/
def sweepParams (base : Params) (name : Str) (value : Int) : Params :=
  ((base.set name (showInt value)).set "swept_parameter".toList name).setAll
    ((fieldsAt ',' name).map fun n => (n, showInt value))

/-- The loop over the values of a sweep, test_builder/test_builder:443-454. -/
def sweepLoop (f : Flags) (name : Str) (configs : List Str) :
    List Int → Params → List Test → Outcome (List Test)
  | [], _, tests => .ok tests
  | v :: rest, base, tests => do
    let base := sweepParams base name v
    let tests ← buildConfigs f base configs tests
    sweepLoop f name configs rest base tests

/-- The parameters that all tests start with, test_builder/test_builder:387-389. -/
def baseParams (f : Flags) : Params := [("test_duration".toList, f.duration)]

/-- What the positional arguments ask for, test_builder/test_builder:391-395, 416-424.  Simplification: the three
numbers of a sweep are whole numbers. -/
inductive Request where
  | configs (configs : List Str)
  | sweep (name : Str) (start step stop : Int) (configs : List Str)

/-- `build_test_sequence_protos` with `build_parameter_sweep_test_protos`, test_builder/test_builder:379-396,
415-455, and the checks of the arguments in `main` (248-251, 276-279). -/
def build (f : Flags) (r : Request) : Outcome (List Test) := do
  validateInteger 1 f.duration
  match r with
  | .configs [] => .error "exit 4"
  | .configs cs => buildConfigs f (baseParams f) cs []
  | .sweep _ _ _ _ [] => .error "exit 8"
  | .sweep name start step stop cs =>
    if name = [] ∨ [] ∈ fieldsAt ',' name then .error "bad array subscript"
    else
      match sequence start step stop with
      | none => .error "exit 9"
      | some [] => .error "exit 10"
      | some values => sweepLoop f name cs values (baseParams f) []

/-! ### the meaning of the text of a test -/

/-- A setting with a text, test_builder/test_builder:795-798. -/
def textSetting (name : String) (value : Str) : Outcome Drivers.Setting := do
  let v ← protoString value
  .ok ⟨name.toList, v⟩

/-- A setting with a number, test_builder/test_builder:814-817; its value is kept in decimal. -/
def numberSetting (name : String) (value : Str) : Outcome Drivers.Setting := do
  let v ← protoInt 64 value
  .ok ⟨name.toList, showInt v⟩

/-- A setting that is left out in some cases, test_builder/test_builder:803-819. -/
def when (b : Bool) (s : Outcome Drivers.Setting) : Outcome (List Drivers.Setting) :=
  if b then do
    let s ← s
    .ok [s]
  else .ok []

/-- `maybe_emit_ip_version`, test_builder/test_builder:763-768. -/
def ipVersion (p : Params) : Outcome Int :=
  match p.find "ip_version".toList with
  | some v => protoInt 32 v
  | none => .ok 0

/-- The options of a protocol driver, by its name: test_builder/test_builder:793-838 (grpc), 853-897 (mercury),
939-977 (homa). -/
def driverOptions (p : Params) : Outcome Drivers.Options := do
  let protocol ← get p "protocol_driver"
  let pool := (p.find "threadpool_type".toList).getD []
  let size ← get p "threadpool_size"
  let ip ← ipVersion p
  if protocol = "grpc".toList then do
    let server ← get p "server_type"
    let client ← get p "client_type"
    let transport := (p.find "transport".toList).getD []
    let s1 ← textSetting "server_type" server
    let s2 ← when (server ≠ "inline".toList && pool ≠ []) (textSetting "threadpool_type" pool)
    let s3 ← when (server ≠ "inline".toList && size ≠ "0".toList) (numberSetting "threadpool_size" size)
    let s4 ← when (transport ≠ []) (textSetting "transport" transport)
    let c ← textSetting "client_type" client
    .ok { name := some "default_protocol_driver_options".toList, protocol := some protocol,
          serverSettings := s1 :: (s2 ++ s3 ++ s4), clientSettings := [c], ipVersion := ip }
  else if protocol = "mercury".toList then do
    let transport ← get p "transport"
    let s1 ← textSetting "hg_init_info_string"
      (if transport = "ofi+tcp".toList then "ofi+tcp://__SERVER_IP__".toList else transport)
    let s2 ← when (pool ≠ []) (textSetting "threadpool_type" pool)
    let s3 ← when (size ≠ "0".toList) (numberSetting "threadpool_size" size)
    .ok { name := some "default_protocol_driver_options".toList, protocol := some protocol,
          serverSettings := s1 :: (s2 ++ s3), ipVersion := ip }
  else do
    let servers ← get p "server_threads"
    let clients ← get p "client_threads"
    let nocopy ← get p "nocopy"
    let pingPong ← get p "ping_pong"
    let s1 ← when (pool ≠ []) (textSetting "threadpool_type" pool)
    let s2 ← when (size ≠ "0".toList) (numberSetting "threadpool_size" size)
    let s3 ← numberSetting "server_threads" servers
    let s4 ← numberSetting "client_threads" clients
    let s5 ← numberSetting "nocopy" nocopy
    let s6 ← numberSetting "ping_pong" pingPong
    .ok { name := some "default_protocol_driver_options".toList, protocol := some protocol,
          serverSettings := s1 ++ s2 ++ [s3, s4, s5, s6], ipVersion := ip }

/-- A payload of a fixed size, test_builder/test_builder:1036-1039. -/
def payload (name : String) (size : Int) : PayloadSpec := { name := name.toList, size := some size }

/-- An RPC with payloads of fixed sizes, test_builder/test_builder:1044-1051. -/
def plainRpc (name client server filter request response : String) (tracing : Int := 0) : RpcSpec :=
  { name := name.toList, client := [client.toList], server := server.toList,
    fanoutFilter := filter.toList, requestPayloadName := some request.toList,
    responsePayloadName := some response.toList, tracingInterval := tracing }

/-- `max_duration_us: ${TEST_DURATION}000000`, test_builder/test_builder:1029. -/
def maxDuration (p : Params) : Outcome Int := do
  let text ← get p "test_duration"
  let d ← arith text
  protoInt 32 (showInt d ++ "000000".toList)

/-- A parameter as an integer field.  Code: test_builder/test_builder:1020, 1038. -/
def number (bits : Nat) (p : Params) (key : String) : Outcome Int := do
  let text ← get p key
  protoInt bits text

/-- `open_loop_interval_ns: ${RPC_INTERVAL_US}000`, test_builder/test_builder:1030. -/
def interval (p : Params) : Outcome Int := do
  let text ← get p "rpc_interval_us"
  protoInt 64 (text ++ "000".toList)

/-- The traffic of the pattern clique, test_builder/test_builder:1016-1056. -/
def cliqueTraffic (p : Params) : Outcome Config := do
  let nodes ← number 32 p "node_count"
  let duration ← maxDuration p
  let ns ← interval p
  let mode ← get p "synchronization_mode"
  let mode ← protoString mode
  let us ← get p "rpc_interval_us"
  let warmup ← quotient 3000000 us
  let request ← number 64 p "request_size"
  let response ← number 64 p "response_size"
  .ok {
    services := [{ name := "clique".toList, count := some nodes }]
    actionLists := [{ name := "clique".toList, actionNames := ["clique_queries".toList] },
      { name := "clique_query".toList }]
    actions := [{ name := "clique_queries".toList, kind := .rpc "clique_query".toList,
                  iterations := some { maxDurationUs := some duration, openLoopIntervalNs := some ns,
                                       openLoopIntervalDistribution := mode, warmupIterations := warmup } }]
    payloads := [payload "request_payload" request, payload "response_payload" response]
    rpcs := [plainRpc "clique_query" "clique" "clique" "all" "request_payload" "response_payload"] }

/-- The traffic of the pattern rectangular, test_builder/test_builder:1176-1218. -/
def rectangularTraffic (p : Params) : Outcome Config := do
  let xText ← get p "x_size"
  let yText ← get p "y_size"
  let product ← product xText yText
  let nodes ← protoInt 32 (showInt product)
  let x ← number 32 p "x_size"
  let y ← number 32 p "y_size"
  let duration ← maxDuration p
  let ns ← interval p
  let mode ← get p "synchronization_mode"
  let mode ← protoString mode
  let us ← get p "rpc_interval_us"
  let warmup ← quotient 3000000 us
  let request ← number 64 p "request_size"
  let response ← number 64 p "response_size"
  let filter ← get p "fanout_filter"
  let filter ← protoString filter
  let tracing ← number 32 p "tracing_interval"
  .ok {
    services := [{ name := "rectangular".toList, count := some nodes, xSize := some x, ySize := some y }]
    actionLists := [{ name := "rectangular".toList, actionNames := ["rectangular_queries".toList] },
      { name := "rectangular_query".toList }]
    actions := [{ name := "rectangular_queries".toList, kind := .rpc "rectangular_query".toList,
                  iterations := some { maxDurationUs := some duration, openLoopIntervalNs := some ns,
                                       openLoopIntervalDistribution := mode, warmupIterations := warmup } }]
    payloads := [payload "request_payload" request, payload "response_payload" response]
    rpcs := [{ plainRpc "rectangular_query" "rectangular" "rectangular" "" "request_payload"
      "response_payload" tracing with fanoutFilter := filter }] }

/-- The traffic of the pattern client_server, test_builder/test_builder:1247-1288.  No fan-out filter is given. -/
def clientServerTraffic (p : Params) : Outcome Config := do
  let clients ← number 32 p "client_count"
  let servers ← number 32 p "server_count"
  let duration ← maxDuration p
  let parallel ← number 64 p "parallel_queries"
  .ok {
    services := [{ name := "client".toList, count := some clients },
      { name := "server".toList, count := some servers }]
    rpcs := [plainRpc "client_server_rpc" "client" "server" "all" "request_payload" "response_payload"]
    payloads := [payload "request_payload" 196, payload "response_payload" 262144]
    actionLists := [{ name := "client".toList, actionNames := ["run_queries".toList] },
      { name := "client_server_rpc".toList }]
    actions := [{ name := "run_queries".toList, kind := .rpc "client_server_rpc".toList,
                  iterations := some { maxDurationUs := some duration, maxParallelIterations := parallel,
                                       warmupIterations := 1000 } }] }

/-- The traffic of the pattern tripartite, test_builder/test_builder:1314-1391. -/
def tripartiteTraffic (p : Params) : Outcome Config := do
  let clients ← number 32 p "client_count"
  let indexes ← number 32 p "index_count"
  let datas ← number 32 p "data_count"
  let duration ← maxDuration p
  .ok {
    services := [{ name := "client".toList, count := some clients },
      { name := "index".toList, count := some indexes }, { name := "data".toList, count := some datas }]
    rpcs := [plainRpc "client_index_rpc" "client" "index" "all" "index_request_payload"
        "index_response_payload",
      plainRpc "client_data_rpc" "client" "data" "all" "data_request_payload" "data_response_payload"]
    payloads := [payload "index_request_payload" 196, payload "index_response_payload" 1024,
      payload "data_request_payload" 64, payload "data_response_payload" 512]
    actionLists := [{ name := "client".toList, actionNames := ["client_do_many_queries".toList] },
      { name := "client_do_one_query".toList,
        actionNames := ["client_queryindex".toList, "client_querydata".toList] },
      { name := "client_index_rpc".toList }, { name := "client_data_rpc".toList }]
    actions := [{ name := "client_do_many_queries".toList, kind := .actionList "client_do_one_query".toList,
                  iterations := some { maxDurationUs := some duration, warmupIterations := 1000 } },
      { name := "client_queryindex".toList, kind := .rpc "client_index_rpc".toList },
      { name := "client_querydata".toList, kind := .rpc "client_data_rpc".toList,
        dependencies := ["client_queryindex".toList] }] }

/-- The traffic that the two patterns with three levels have in common, test_builder/test_builder:1418-1490 and
1534-1596: `mode` is the distribution of the intervals, `leaf` the RPC to the leaves. -/
def threeLevels (roots leaves duration ns warmup : Int) (mode : Str) (leaf : RpcSpec) : Config where
  services := [{ name := "load_balancer".toList, count := some 1 },
    { name := "root".toList, count := some roots }, { name := "leaf".toList, count := some leaves }]
  actionLists := [{ name := "load_balancer".toList,
                    actionNames := ["do_closed_loop_root_queries".toList], maxRpcSamples := 10000000 },
    { name := "root_query".toList, actionNames := ["root_query_fanout".toList], maxRpcSamples := 256 },
    { name := "leaf_query".toList }]
  actions := [{ name := "do_closed_loop_root_queries".toList, kind := .rpc "root_query".toList,
                iterations := some { maxDurationUs := some duration, openLoopIntervalNs := some ns,
                                     openLoopIntervalDistribution := mode, warmupIterations := warmup } },
    { name := "root_query_fanout".toList, kind := .rpc "leaf_query".toList }]
  rpcs := [plainRpc "root_query" "load_balancer" "root" "round_robin" "root_request_payload"
    "root_response_payload", leaf]

/-- The numbers of the two patterns with three levels, test_builder/test_builder:1425-1443: roots, leaves,
duration, interval and warmup iterations. -/
def levelNumbers (p : Params) : Outcome (Int × Int × Int × Int × Int) := do
  let roots ← number 32 p "root_count"
  let leaves ← number 32 p "leaf_count"
  let duration ← maxDuration p
  let qps ← get p "qps"
  let ns ← quotient 1000000000 qps
  let v ← arith qps
  .ok (roots, leaves, duration, ns, wrap64 (3 * v))

/-- The traffic of the pattern multi_level_rpc, test_builder/test_builder:1418-1490. -/
def multiLevelTraffic (p : Params) : Outcome Config := do
  let (roots, leaves, duration, ns, warmup) ← levelNumbers p
  .ok { threeLevels roots leaves duration ns warmup "constant".toList
      (plainRpc "leaf_query" "root" "leaf" "all" "leaf_request_payload" "leaf_response_payload") with
    payloads := [payload "root_request_payload" 1024, payload "root_response_payload" 1024,
      payload "leaf_request_payload" 1024, payload "leaf_response_payload" 1024] }

/-- The distribution of the sizes of the RPC to the leaves, test_builder/test_builder:1597-1602. -/
def leafPayload (lower upper : Int) : Dist.Config where
  name := "leaf_payload".toList
  fieldNames := ["request_payload_size".toList, "response_payload_size".toList]
  pmfPoints := [{ pmf := .num 1, dataPoints := [{ exact := some 1024 },
    { lower := some lower, upper := some upper }] }]

/-- The traffic of the pattern variable_response_multi_level_rpc, test_builder/test_builder:1534-1602.  Left out:
the overload limits (1594-1596), which are not part of `Config`. -/
def variableTraffic (p : Params) : Outcome Config := do
  let (roots, leaves, duration, ns, warmup) ← levelNumbers p
  let (lowerText, upperText) ← sizeTexts p
  let lower ← protoInt 64 lowerText
  let upper ← protoInt 64 upperText
  .ok { threeLevels roots leaves duration ns warmup "exponential".toList
      { name := "leaf_query".toList, client := ["root".toList], server := "leaf".toList,
        distributionConfigName := some "leaf_payload".toList } with
    payloads := [payload "root_request_payload" 1024, payload "root_response_payload" 1024]
    rpcDistributions := [leafPayload lower upper] }

/-- The traffic of a test, by its pattern, test_builder/test_builder:606. -/
def traffic (p : Params) : Outcome Config := do
  let pattern ← get p "traffic_pattern"
  if pattern = "clique".toList then cliqueTraffic p
  else if pattern = "rectangular".toList then rectangularTraffic p
  else if pattern = "client_server".toList then clientServerTraffic p
  else if pattern = "tripartite".toList then tripartiteTraffic p
  else if pattern = "multi_level_rpc".toList then multiLevelTraffic p
  else variableTraffic p

/-- What distbench reads when it is given the text of a test, test_builder/test_builder:587-612: the name, the
options of the protocol driver and the traffic.  Simplification: a test with `extra_test_contents`
(608-610), which is any text, is refused. -/
def readTest (t : Test) : Outcome (Str × Drivers.Options × Config) :=
  if (t.params.find "extra_test_contents".toList).isSome then .error "not modelled"
  else do
    let name ← protoString t.name
    let options ← driverOptions t.params
    let cfg ← traffic t.params
    .ok (name, options, cfg)

/-! ### attributes in the text -/

/-- `single_quote_string`, test_builder/test_builder:622-626.  The shell's `echo -n` takes `-n`, `-e`, `-E` and
combinations of them as options and prints nothing. -/
def quoteBody : Str → Str
  | [] => []
  | c :: cs => if c = '\'' then '\\' :: '\'' :: quoteBody cs else c :: quoteBody cs

/-- Whether `echo -n` takes a word as an option.  Code: test_builder/test_builder:624. -/
def isEchoOption : Str → Bool
  | '-' :: c :: cs => (c :: cs).all fun c => c = 'n' || c = 'e' || c = 'E'
  | _ => false

/-- The text between the quotes, test_builder/test_builder:622-626. -/
def quoted (t : Str) : Str := if isEchoOption t then [] else quoteBody t

/-- How the protobuf text format reads a string between single quotes, up to the closing quote (library
contract).  Simplification: numeric escapes are refused.  The text comes from test_builder/test_builder:600-603. -/
def readQuoted : Str → Option Str
  | [] => some []
  | '\'' :: _ => none
  | '\n' :: _ => none
  | ['\\'] => none
  | '\\' :: c :: cs =>
    match [('n', '\n'), ('t', '\t'), ('r', '\r'), ('a', Char.ofNat 7), ('b', Char.ofNat 8),
        ('f', Char.ofNat 12), ('v', Char.ofNat 11), ('\\', '\\'), ('\'', '\''), ('"', '"'),
        ('?', '?')].lookup c with
    | some d => (readQuoted cs).map (d :: ·)
    | none => none
  | c :: cs => (readQuoted cs).map (c :: ·)

/-! ### running the tests -/

/-- `OUTPUT_FILE`, test_builder/test_builder:700, with the suffix of 716. -/
def resultFile (f : Flags) (name : Str) : Str := f.labelPrefix ++ name ++ ".pb.gz".toList

/-- The output directory: for each file with results, the parameters of the test that was run.
Code: test_builder/test_builder:715-736. -/
abbrev Results := Str → Option Params

/-- `run_all_tests` with `maybe_run_test_sequence`, test_builder/test_builder:680-737: the results afterwards, and
the tests that were run.  Every run succeeds: a run that fails ends the script. -/
def runAll (f : Flags) : List Test → Results → Results × List Test
  | [], r => (r, [])
  | t :: rest, r =>
    match r (resultFile f t.name) with
    | some _ => runAll f rest r
    | none =>
      let (r', ran) := runAll f rest fun file =>
        if file = resultFile f t.name then some t.params else r file
      (r', t :: ran)

end Distbench.Builder
