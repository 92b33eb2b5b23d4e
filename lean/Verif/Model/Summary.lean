import Verif.Model.Basic

/-! Model of the summary of a test result (distbench_summary.cc).

Simplifications: `int64_t` does not overflow.  The text of the lines is not modelled; a line is
represented by the numbers and names in it.  Rates are represented by the integers they are quotients of:
counts of RPCs or bytes, and the time in nanoseconds; the division and the rounding to the printed
digits are not modelled. -/

namespace Distbench.Summary

/-! ### Maps -/

/-- `std::string::operator<`.  Code: distbench_summary.cc:52-146. -/
def strLt : Str → Str → Bool
  | [], [] => false
  | [], _ :: _ => true
  | _ :: _, [] => false
  | a :: s, b :: t => if a = b then strLt s t else decide (a.toNat < b.toNat)

/-- `operator<` of `std::pair<std::string, std::string>` (`t_string_pair`, distbench_summary.cc:53). -/
def pairLt (a b : Str × Str) : Bool := if a.1 = b.1 then strLt a.2 b.2 else strLt a.1 b.1

/-- `f(m[k])`: a `std::map` is the list of its pairs in ascending order of keys; a missing key is inserted
with the value `new`.  Code: distbench_summary.cc:59-146. -/
def update {κ α : Type} [DecidableEq κ] (lt : κ → κ → Bool) (k : κ) (new : α) (f : α → α) :
    List (κ × α) → List (κ × α)
  | [] => [(k, f new)]
  | (k', v) :: m =>
    if k = k' then (k', f v) :: m
    else if lt k k' then (k, f new) :: (k', v) :: m
    else (k', v) :: update lt k new f m

/-- `m.find(k)`.  Code: distbench_summary.cc:79-146. -/
def find {κ α : Type} [DecidableEq κ] (k : κ) : List (κ × α) → Option α
  | [] => none
  | (k', v) :: m => if k = k' then some v else find k m

/-! ### Input -/

/-- `RpcSample`, distbench.proto:83-99: the fields the summary uses. -/
structure Sample where
  requestSize : Int
  responseSize : Int
  start : Int
  latency : Int
  warmup : Bool
  deriving DecidableEq, Repr

/-- `RpcPerformanceLog`, distbench.proto:101-104. -/
structure RpcLog where
  successful : List Sample
  failed : List Sample
  deriving DecidableEq, Repr

/-- `TestResult`, distbench.proto:175-: the names of the RPC descriptions of the traffic config, and the
logs by initiator, target and RPC index (`service_logs().instance_logs()[..].peer_logs()[..].rpc_logs()`).
A map is the list of its pairs in the order in which it is iterated over. -/
structure Result where
  rpcNames : List Str
  logs : List (Str × List (Str × List (Nat × RpcLog)))
  deriving DecidableEq, Repr

/-! ### LatencySummary -/

/-- The `double` nearest to `P · 2^-53` (ties to even), as a multiple of `2^-53`: the 53 leading bits
of `P` are kept.  Code: distbench_summary.cc:31-50. -/
def roundDouble (P : Nat) : Nat :=
  let S := 2 ^ (Nat.log2 P + 1 - 53)
  let q := P / S
  let r := P % S
  if 2 * r > S ∨ (2 * r = S ∧ q % 2 = 1) then (q + 1) * S else q * S

/-- `(size_t)(N * c)` for a `double` constant `c = m · 2^-53` and a number of samples `N ≤ 2^53`, which is
exactly a `double`.  Code: distbench_summary.cc:31-50. -/
def indexOf (N m : Nat) : Nat := roundDouble (N * m) / 2 ^ 53

/-- `0.5`  Code: distbench_summary.cc:31-50. -/
def c500 : Nat := 2 ^ 52
/-- `0.9` = 0x1.ccccccccccccdp-1  Code: distbench_summary.cc:31-50. -/
def c900 : Nat := 0x1ccccccccccccd
/-- `0.99` = 0x1.fae147ae147aep-1  Code: distbench_summary.cc:31-50. -/
def c990 : Nat := 0x1fae147ae147ae
/-- `0.999` = 0x1.ff7ced916872bp-1  Code: distbench_summary.cc:31-50. -/
def c999 : Nat := 0x1ff7ced916872b

/-- The values of a latency line.  Code: distbench_summary.cc:31-50. -/
structure Stats where
  min : Int
  median : Int
  p90 : Int
  p99 : Int
  p999 : Int
  max : Int
  deriving DecidableEq, Repr

/-- `latencies[i]`; an index out of range is undefined behaviour.  Code: distbench_summary.cc:31-50. -/
def element (l : List Int) (i : Nat) : Outcome Int :=
  match l[i]? with
  | some v => .ok v
  | none => .ub

/-- `LatencySummary`, distbench_summary.cc:31-45: `N` and, if it is positive, the statistics. -/
def latencySummary (latencies : List Int) : Outcome (Nat × Option Stats) :=
  let N := latencies.length
  if N > 0 then do
    let min ← element latencies 0
    let median ← element latencies (indexOf N c500)
    let p90 ← element latencies (indexOf N c900)
    let p99 ← element latencies (indexOf N c990)
    let p999 ← element latencies (indexOf N c999)
    let max ← element latencies (N - 1)
    .ok (N, some { min, median, p90, p99, p999, max })
  else .ok (N, none)

/-- Insertion into an ascending list.  Code: distbench_summary.cc:31-50. -/
def insert (x : Int) : List Int → List Int
  | [] => [x]
  | y :: l => if x ≤ y then x :: y :: l else y :: insert x l

/-- `std::sort`.  Code: distbench_summary.cc:31-50. -/
def sort (l : List Int) : List Int := l.foldr insert []

/-! ### Collecting -/

/-- `rpc_traffic_summary`, distbench_summary.cc:47-51. -/
structure Perf where
  nbRpcs : Int := 0
  requestSize : Int := 0
  responseSize : Int := 0
  deriving DecidableEq, Repr

/-- `std::numeric_limits<int64_t>::max()` and `min()`, distbench_summary.cc:160-161. -/
def maxI64 : Int := 2 ^ 63 - 1
/-- `std::numeric_limits<int64_t>::min()`.  Code: distbench_summary.cc:161. -/
def minI64 : Int := -2 ^ 63

/-- The variables of `SummarizeTestResult`, distbench_summary.cc:149-154, and those of the loop over peers,
160-162. -/
structure Acc where
  latencies : List (Str × List Int) := []
  perf : List ((Str × Str) × Perf) := []
  testTime : Int := 0
  samples : Int := 0
  warmups : Int := 0
  failures : Int := 0
  start : Int := maxI64
  stop : Int := minI64
  record : Perf := {}
  deriving DecidableEq, Repr

/-- One successful sample of the RPC `name`, distbench_summary.cc:171-189. -/
def addSample (name : Str) (a : Acc) (s : Sample) : Acc :=
  if s.warmup then { a with warmups := a.warmups + 1 }
  else { a with
    start := min s.start a.start
    stop := max (s.start + s.latency) a.stop
    record := { a.record with
      requestSize := a.record.requestSize + s.requestSize
      responseSize := a.record.responseSize + s.responseSize }
    latencies := update strLt name [] (fun l => l ++ [s.latency]) a.latencies }

/-- The logs of one RPC, distbench_summary.cc:163-190. -/
def addRpcLog (names : List Str) (a : Acc) (e : Nat × RpcLog) : Acc :=
  let name := names.getD e.1 []
  let a := { a with
    latencies := update strLt name [] id a.latencies
    record := { a.record with nbRpcs := a.record.nbRpcs + e.2.successful.length }
    failures := a.failures + e.2.failed.length
    samples := a.samples + e.2.failed.length + e.2.successful.length }
  e.2.successful.foldl (addSample name) a

/-- The logs of one peer, distbench_summary.cc:158-197. -/
def addPeer (names : List Str) (initiator : Str) (a : Acc) (e : Str × List (Nat × RpcLog)) : Acc :=
  let a := e.2.foldl (addRpcLog names) { a with start := maxI64, stop := minI64, record := {} }
  let a := if a.start ≠ maxI64 then { a with testTime := max a.testTime (a.stop - a.start) } else a
  { a with perf := update pairLt (initiator, e.1) {} (fun _ => a.record) a.perf }

/-- The logs of one instance, distbench_summary.cc:156-198. -/
def addInstance (names : List Str) (a : Acc) (e : Str × List (Str × List (Nat × RpcLog))) : Acc :=
  e.2.foldl (addPeer names e.1) a

/-- distbench_summary.cc:149-199. -/
def collect (r : Result) : Acc := r.logs.foldl (addInstance r.rpcNames) {}

/-! ### The lines -/

/-- The lines of the summary.  Times are in nanoseconds.  Code: distbench_summary.cc:31-219. -/
inductive Line where
  /-- "RPC latency summary:" -/
  | latencyHeader
  | latency (name : Str) (count : Nat) (stats : Option Stats)
  /-- "Communication summary:" -/
  | communicationHeader
  | communication (initiator target : Str) (rpcs requestBytes responseBytes time : Int)
  /-- "Instance summary:" -/
  | instanceHeader
  | instance_ (name : Str) (txBytes rxBytes time : Int)
  /-- "Global summary:" -/
  | globalHeader
  | totalSamples (n : Int)
  | failedSamples (n : Int)
  | warmupSamples (n : Int)
  | totalTime (time : Int)
  | total (txBytes rpcs time : Int)
  deriving DecidableEq, Repr

/-- `AddCommunicationSummaryTo`, distbench_summary.cc:60-79. -/
def communicationLines (time : Int) (perf : List ((Str × Str) × Perf)) : List Line :=
  .communicationHeader ::
    perf.map (fun e => .communication e.1.1 e.1.2 e.2.nbRpcs e.2.requestSize e.2.responseSize time)

/-- `instance_summary`, distbench_summary.cc:55-58. -/
structure Inst where
  tx : Int := 0
  rx : Int := 0
  deriving DecidableEq, Repr

/-- The loop of `AddInstanceSummaryTo`, distbench_summary.cc:89-114: instances, total RPCs, total bytes. -/
def addInst (a : List (Str × Inst) × Int × Int) (e : (Str × Str) × Perf) : List (Str × Inst) × Int × Int :=
  let m := update strLt e.1.1 {} (fun i => { tx := i.tx + e.2.requestSize, rx := i.rx + e.2.responseSize }) a.1
  let m := update strLt e.1.2 {} (fun i => { tx := i.tx + e.2.responseSize, rx := i.rx + e.2.requestSize }) m
  (m, a.2.1 + e.2.nbRpcs, a.2.2 + (e.2.requestSize + e.2.responseSize))

/-- `AddInstanceSummaryTo`, distbench_summary.cc:81-144. -/
def instanceLines (time : Int) (perf : List ((Str × Str) × Perf)) (samples warmups failures : Int) : List Line :=
  let a := perf.foldl addInst ([], 0, 0)
  if a.2.1 = 0 then []
  else .instanceHeader :: a.1.map (fun e => .instance_ e.1 e.2.tx e.2.rx time) ++
    [.globalHeader, .totalSamples samples, .failedSamples failures, .warmupSamples warmups,
     .totalTime time, .total a.2.2 a.2.1 time]

/-- The loop over the latencies, distbench_summary.cc:207-213. -/
def latencyLines : List (Str × List Int) → Outcome (List Line)
  | [] => .ok []
  | e :: m => do
    let (n, stats) ← latencySummary (sort e.2)
    let rest ← latencyLines m
    .ok (.latency e.1 n stats :: rest)

/-- `SummarizeTestResult`, distbench_summary.cc:148-219.  Reading `rpc_descriptions(i)` outside of its
range is undefined behaviour (line 165); it is the outcome of the whole wherever it happens.
`(double)test_time / 1'000'000'000` is 0 exactly if `test_time` is. -/
def summarize (r : Result) : Outcome (List Line) :=
  if ∀ e ∈ r.logs, ∀ p ∈ e.2, ∀ l ∈ p.2, l.1 < r.rpcNames.length then
    let a := collect r
    if a.testTime = 0 then .ok []
    else do
      let lines ← latencyLines a.latencies
      .ok (.latencyHeader :: lines ++ communicationLines a.testTime a.perf ++
        instanceLines a.testTime a.perf a.samples a.warmups a.failures)
  else .ub

end Distbench.Summary
