import Verif.Model.Services

/-! Model of the analysis of results, analysis/results_conversion.py. -/

namespace Distbench.Analysis
open Services (ServiceSpec showInt)

/-- `message RpcSample`, distbench.proto:83-100: the fields the script reads.  `trace`: the first
number of `trace_context.action_iterations`.
Simplification: a trace context without such a number, at which the script would stop, is left out.
Code: analysis/results_conversion.py:42-45, 148-155. -/
structure Sample where
  size : Int := 0
  latency : Int := 0
  warmup : Bool := false
  trace : Option Int := none
  deriving DecidableEq, Repr

/-- A map of a protobuf message, as a list of entries.
Code: distbench.proto:108, 152, 166. -/
abbrev Map (K V : Type) := List (K × V)

/-- `m[k]`.  A key that is missing gets the default value.
Simplification: Python also adds the key, with a value that holds no samples.
Code: analysis/results_conversion.py:290-293, 315-320. -/
def Map.get {K V : Type} [DecidableEq K] (m : Map K V) (k : K) (default_ : V) : V :=
  match m with
  | [] => default_
  | (k', v) :: rest => if k' = k then v else Map.get rest k default_

/-- One step of sorting.  Code: analysis/results_conversion.py:120, 169, 294. -/
def insertBy {α : Type} (le : α → α → Bool) (a : α) : List α → List α
  | [] => [a]
  | b :: l => if le a b then a :: b :: l else b :: insertBy le a l

/-- `sorted`.  Code: analysis/results_conversion.py:120, 169, 294, 331, 344. -/
def sortBy {α : Type} (le : α → α → Bool) : List α → List α
  | [] => []
  | a :: l => insertBy le a (sortBy le l)

/-- The order of Python's strings.  Code: analysis/results_conversion.py:344, 358, 366, 377. -/
def strLe : Str → Str → Bool
  | [], _ => true
  | _ :: _, [] => false
  | a :: l, b :: m => a.toNat < b.toNat || (a.toNat == b.toNat && strLe l m)

/-- The order of Python's integers.  Code: analysis/results_conversion.py:294, 331. -/
def intLe (a b : Int) : Bool := a ≤ b

/-- `sorted(m.keys())`.  Code: analysis/results_conversion.py:294, 331, 344. -/
def Map.sortedKeys {K V : Type} (le : K → K → Bool) (m : Map K V) : List K :=
  sortBy le (m.map Prod.fst)

/-- `message RpcPerformanceLog` by index of the RPC: the samples of the RPCs that succeeded.
Code: distbench.proto:101-109. -/
abbrev RpcLogs := Map Int (List Sample)

/-- `message ServicePerformanceLog`: logs by server instance.  Code: distbench.proto:150-153. -/
abbrev PeerLogs := Map Str RpcLogs

/-- `message ServiceLogs`: logs by client instance.  Code: distbench.proto:164-167. -/
abbrev InstanceLogs := Map Str PeerLogs

/-- `message RpcSpec`, traffic_config.proto:113-116. -/
structure Rpc where
  name : Str
  clients : List Str
  server : Str
  deriving DecidableEq

/-- `message TestResult`: what the script reads of it.
Code: analysis/results_conversion.py:198-223, 290. -/
structure Test where
  services : List ServiceSpec
  rpcs : List Rpc
  logs : InstanceLogs

/-- The settings of a formatter.  `trace`: the format is `trace_context`.
Code: analysis/results_conversion.py:17-21, 477-486. -/
structure Formatter where
  warmups : Bool := false
  trace : Bool := false
  deriving DecidableEq

/-- What a sample adds to the intermediate format.
Code: analysis/results_conversion.py:41-45, 71-75, 97-101, 147-155. -/
def Formatter.row (f : Formatter) (s : Sample) : Option (Int × Int) :=
  if f.warmups || !s.warmup then
    if f.trace then s.trace.map (fun i => (i, s.latency)) else some (s.size, s.latency)
  else none

/-- `summarize`, analysis/results_conversion.py:38-46, 68-76, 94-102, 144-156. -/
def Formatter.rows (f : Formatter) (l : List Sample) : List (Int × Int) := l.filterMap f.row

/-- `s.rsplit("/", 1)[0]`.  Code: analysis/results_conversion.py:346, 370. -/
def rsplitHead (s : Str) : Str :=
  match s.reverse.dropWhile (· ≠ '/') with
  | [] => s
  | _ :: r => r.reverse

/-- `range(n)` as texts.  Code: analysis/results_conversion.py:177-190. -/
def rangeStr (n : Int) : List Str := (List.range n.toNat).map fun i : Nat => showInt i

/-- `enumerate_service_instances`, analysis/results_conversion.py:174-192. -/
def enumerateInstances (s : ServiceSpec) : List Str :=
  match s.xSize with
  | none => rangeStr s.getCount
  | some x =>
    match s.ySize with
    | none => rangeStr x
    | some y =>
      match s.zSize with
      | none => (rangeStr x).flatMap fun a => (rangeStr y).map fun b => a ++ '/' :: b
      | some z =>
        (rangeStr x).flatMap fun a => (rangeStr y).flatMap fun b => (rangeStr z).map fun c =>
          a ++ '/' :: b ++ '/' :: c

/-- `os.path.join` of two paths.  Code: analysis/results_conversion.py:226, 233-251, 265-280, 298-307. -/
def join (a b : Str) : Str :=
  if b.head? = some '/' then b
  else if a = [] ∨ a.getLast? = some '/' then a ++ b
  else a ++ '/' :: b

/-- `self.service_instances[name]`: the last service of the name; `none` is a `KeyError`.
Code: analysis/results_conversion.py:212-215, 242, 275. -/
def Test.instances (t : Test) (name : Str) : Option (List Str) :=
  (t.services.reverse.find? (fun s => s.name = name)).map enumerateInstances

/-- `self.rpc_names[index]`, where a negative index counts from the end; `none` is an `IndexError`.
Code: analysis/results_conversion.py:223, 298-300. -/
def Test.rpcName (t : Test) (index : Int) : Option Str :=
  if 0 ≤ index then (t.rpcs[index.toNat]?).map (·.name)
  else if 0 ≤ index + t.rpcs.length then (t.rpcs[(index + t.rpcs.length).toNat]?).map (·.name)
  else none

/-- `peer_logs[server]` of a client.  Code: analysis/results_conversion.py:290-293. -/
def Test.pairLogs (t : Test) (client server : Str) : RpcLogs := (t.logs.get client []).get server []

/-- `get_summary_per_rpc_per_pair_of_instances`, analysis/results_conversion.py:310-321.
Simplification, here and below: the functions give the samples that are passed to `summarize`, in
order; their rows are those that `Formatter.rows` gives for the whole list. -/
def Test.perRpc (t : Test) (client server : Str) (index : Int) : List Sample :=
  (t.pairLogs client server).get index []

/-- `get_summary_per_service_instance`, analysis/results_conversion.py:323-335. -/
def Test.perPair (t : Test) (client server : Str) : List Sample :=
  (Map.sortedKeys intLe (t.pairLogs client server)).flatMap (t.perRpc client server)

/-- `get_summary_per_service`, analysis/results_conversion.py:337-351. -/
def Test.perService (t : Test) (client service : Str) : List Sample :=
  (Map.sortedKeys strLe (t.logs.get client [])).flatMap fun server =>
    if rsplitHead server = service then t.perPair client server else []

/-- `get_summary_per_client_instance`, analysis/results_conversion.py:353-362. -/
def Test.perClientInstance (t : Test) (client : Str) : List Sample :=
  (Map.sortedKeys strLe (t.logs.get client [])).flatMap (t.perPair client)

/-- `get_summary_per_client`, analysis/results_conversion.py:364-373. -/
def Test.perClient (t : Test) (client : Str) : List Sample :=
  (Map.sortedKeys strLe t.logs).flatMap fun c =>
    if rsplitHead c = client then t.perClientInstance c else []

/-- `get_summary`, analysis/results_conversion.py:375-381. -/
def Test.summary (t : Test) : List Sample :=
  (Map.sortedKeys strLe t.logs).flatMap t.perClientInstance

/-- A call of `write_summary`: the path, and the samples of the summary.
Code: analysis/results_conversion.py:383-387. -/
abbrev Write := Str × List Sample

/-- `write_pairwise_logs`, analysis/results_conversion.py:286-308; `none` is an exception. -/
def Test.pairWrites (t : Test) (client server dir : Str) : Option (List Write) := do
  let l ← (Map.sortedKeys intLe (t.pairLogs client server)).mapM fun index => do
    let name ← t.rpcName index
    some (join dir (name ++ ".txt".toList), t.perRpc client server index)
  some (l ++ [(join dir "pairwise_summary.txt".toList, t.perPair client server)])

/-- `create_directory_tree_for_service`, analysis/results_conversion.py:261-284. -/
def Test.serviceWrites (t : Test) (client service dir : Str) : Option (List Write) := do
  let dir := join dir service
  let instances ← t.instances service
  let l ← instances.mapM fun i => t.pairWrites client (join service i) (join dir i)
  some ((join dir "service_summary.txt".toList, t.perService client service) :: l.flatten)

/-- One instance of a client, analysis/results_conversion.py:242-259. -/
def Test.clientInstanceWrites (t : Test) (servers : List Str) (client i dir : Str) :
    Option (List Write) := do
  let name := join client i
  let dir := join dir i
  let l ← servers.mapM fun s => t.serviceWrites name s dir
  some ((join dir "client_instance_summary.txt".toList, t.perClientInstance name) :: l.flatten)

/-- `create_directory_tree_for_client`, analysis/results_conversion.py:231-259. -/
def Test.clientWrites (t : Test) (servers : List Str) (client dir : Str) : Option (List Write) := do
  let dir := join dir client
  let instances ← t.instances client
  let l ← instances.mapM fun i => t.clientInstanceWrites servers client i dir
  some ((join dir "client_summary.txt".toList, t.perClient client) :: l.flatten)

/-- `create_directory_tree`, analysis/results_conversion.py:225-229.  `clients` and `servers` are the
sets of services, in the order in which Python goes through them. -/
def Test.writes (t : Test) (clients servers : List Str) (dir : Str) : Option (List Write) := do
  let l ← clients.mapM fun c => t.clientWrites servers c dir
  some ((join dir "test_summary.txt".toList, t.summary) :: l.flatten)

/-- The orders in which Python may go through a set.
Code: analysis/results_conversion.py:203-206, 217-221, 228, 256. -/
def Test.Orders (t : Test) (clients servers : List Str) : Prop :=
  clients.Nodup ∧ servers.Nodup ∧ (∀ c, c ∈ clients ↔ ∃ r ∈ t.rpcs, c ∈ r.clients) ∧
  ∀ s, s ∈ servers ↔ ∃ r ∈ t.rpcs, r.server = s

/-- What a file holds after the calls of `write_summary`: nothing is written for an empty summary, and
a later call overwrites.  Code: analysis/results_conversion.py:383-400. -/
def content (f : Formatter) (ws : List Write) (path : Str) : Option (List (Int × Int)) :=
  ((ws.filter fun w => w.1 = path && !(f.rows w.2).isEmpty).getLast?).map fun w => f.rows w.2

/-- `create_all_test_directories` from test `i` on, with the orders of each test; `none` is an
exception.  Code: analysis/results_conversion.py:429-434. -/
def allWrites (out : Str) : Nat → List (Test × List Str × List Str) → Option (List Write)
  | _, [] => some []
  | i, (t, clients, servers) :: rest => do
    let a ← t.writes clients servers (out ++ "/test_".toList ++ showInt i)
    let b ← allWrites out (i + 1) rest
    some (a ++ b)

/-- The summary of `write_overall_summary`, analysis/results_conversion.py:436-441. -/
def overall (tests : List Test) : List Sample := tests.flatMap Test.summary

/-- `total_samples` when it is printed: every call of `summarize` adds to it.
Code: analysis/results_conversion.py:40, 452. -/
def totalSamples (ws : List Write) (tests : List Test) : Nat :=
  (ws.map fun w => w.2.length).sum + (overall tests).length

/-- `warmup_samples` when it is printed.  Code: analysis/results_conversion.py:42-43, 453-455. -/
def warmupSamples (ws : List Write) (tests : List Test) : Nat :=
  (ws.map fun w => w.2.countP (·.warmup)).sum + (overall tests).countP (·.warmup)

/-! ### The formats -/

/-- `"{: <15}"`: padded with blanks on the right.  Code: analysis/results_conversion.py:54-56. -/
def pad15 (s : Str) : Str := s ++ List.replicate (15 - s.length) ' '

/-- A line of the default format, analysis/results_conversion.py:56. -/
def defaultLine (r : Int × Int) : Str := pad15 (showInt r.1) ++ ' ' :: showInt r.2 ++ ['\n']

/-- `DefaultFormatter.format_file`, analysis/results_conversion.py:51-57. -/
def defaultFile (suppressHeader : Bool) (rows : List (Int × Int)) : Str :=
  (if suppressHeader then []
   else pad15 "Request_size".toList ++ ' ' :: "Latency_ns".toList ++ ['\n']) ++
  rows.flatMap defaultLine

/-- `buckets.setdefault(size, []).append(latency)`, analysis/results_conversion.py:118. -/
def addTo (m : Map Int (List Int)) (r : Int × Int) : Map Int (List Int) :=
  match m with
  | [] => [(r.1, [r.2])]
  | (k, l) :: rest => if k = r.1 then (k, l ++ [r.2]) :: rest else (k, l) :: addTo rest r

/-- `np.percentile(latencies, p)` in ten-thousandths, for `p` in hundredths of a percent: linear
interpolation between the two closest ranks.
Simplification: exact arithmetic instead of floating point.
Code: analysis/results_conversion.py:126-129. -/
def percentile (latencies : List Int) (p : Nat) : Int :=
  let a := sortBy intLe latencies
  let k := (a.length - 1) * p / 10000
  let r := (a.length - 1) * p % 10000
  let lo := a.getD k 0
  let hi := a.getD (k + 1) lo
  lo * 10000 + (hi - lo) * r

/-- `np.round(x, 2)` for `x` in ten-thousandths; the result is in hundredths.
Code: analysis/results_conversion.py:125-129. -/
def round2 (x : Int) : Int :=
  if x % 100 < 50 then x / 100
  else if 50 < x % 100 then x / 100 + 1
  else if x / 100 % 2 = 0 then x / 100 else x / 100 + 1

/-- The smallest element, 0 for none.  Code: analysis/results_conversion.py:125 (`np.min`). -/
def minimum (l : List Int) : Int := (sortBy intLe l).headD 0

/-- The largest element, 0 for none.  Code: analysis/results_conversion.py:130 (`np.max`). -/
def maximum (l : List Int) : Int := (sortBy intLe l).getLastD 0

/-- A row of the statistics: latencies in hundredths.
Code: analysis/results_conversion.py:120-131. -/
structure Stats where
  size : Int
  n : Nat
  min : Int
  p50 : Int
  p90 : Int
  p99 : Int
  p9999 : Int
  max : Int
  deriving DecidableEq

/-- One row of the statistics, analysis/results_conversion.py:120-131. -/
def statsOf (b : Int × List Int) : Stats :=
  { size := b.1
    n := b.2.length
    min := round2 (minimum b.2 * 10000)
    p50 := round2 (percentile b.2 5000)
    p90 := round2 (percentile b.2 9000)
    p99 := round2 (percentile b.2 9900)
    p9999 := round2 (percentile b.2 9999)
    max := maximum b.2 * 100 }

/-- `StatisticFormatter.format_file`, analysis/results_conversion.py:107-135: the rows. -/
def statistics (rows : List (Int × Int)) : List Stats :=
  (sortBy (fun a b => intLe a.1 b.1) (rows.foldl addTo [])).map statsOf

/-- The update of `max_latency_map`, analysis/results_conversion.py:166-168. -/
def raise (m : Map Int Int) (r : Int × Int) : Map Int Int :=
  match m with
  | [] => [(r.1, r.2)]
  | (k, v) :: rest =>
    if k = r.1 then (k, if v < r.2 then r.2 else v) :: rest else (k, v) :: raise rest r

/-- `TraceContextFormatter.format_file`, analysis/results_conversion.py:158-171: the rows. -/
def longest (rows : List (Int × Int)) : List (Int × Int) :=
  sortBy (fun a b => intLe a.1 b.1) (rows.foldl raise [])

/-! ### The script as a whole -/

/-- How the script ends.  `exception`: Python prints it and ends with status 1.
Code: analysis/results_conversion.py:383-492. -/
inductive Ending where
  | finished
  | exit
  | exception
  deriving DecidableEq

/-- The exit status: `exit()` without an argument is status 0.
Code: analysis/results_conversion.py:393, 400, 425, 451, 489. -/
def Ending.status : Ending → Nat
  | .finished => 0
  | .exit => 0
  | .exception => 1

/-- The script.  `known`: the format is known; `readable`: the input file can be read; `parses`: it
parses as results; `treeOk`: no exception while the tree is written; `dirsOk`, `filesOk`: directories
and files can be written.
Simplification: which of several failures comes first is fixed; an exception and a failure to write are
not told apart by their order.  Code: analysis/results_conversion.py:412-492. -/
def script (known readable parses treeOk dirsOk filesOk : Bool) : Ending :=
  if !known then .exit
  else if !readable then .exit
  else if !parses then .exception
  else if !dirsOk then .exit
  else if !filesOk then .exit
  else if !treeOk then .exception
  else .finished

end Distbench.Analysis
