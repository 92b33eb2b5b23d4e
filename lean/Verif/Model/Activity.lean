import Verif.Model.Tables

/-! Activities: creating them, running them, and the metrics that are reported. -/

namespace Distbench.Activity
open Tables

/-- The five classes derived from `Activity`, activity.cc 30-96, with the members that matter:
`iteration_count_`, the array, and the number of accesses in one run.  The contents of the array of
`ConsumeCpu` are random and only summed up in unsigned arithmetic; they are left out, as are the
times for which the last two sleep or spin. -/
inductive Act where
  | consumeCpu (count : Int)
  | polluteData (count : Int) (data : List Int) (reads : Int)
  | polluteCode (count : Int) (calls : Int)
  | sleepFor
  | spinFor
  deriving DecidableEq, Repr

/-- `POLLUTE_ICACHE_LOOP_SIZE * POLLUTE_ICACHE_LOOP_SIZE`, activity.cc 305 and 345. -/
def functionCount : Nat := 100 * 100

/-- `AllocateActivity` with the `Initialize` functions, activity.cc 141-160, 166-169, 185-188, 220-223,
253-266 and 343-355.  `resize` with a negative `int` asks for more elements than a vector can have
and throws, which nothing catches; a distribution over `0 .. -1` is undefined; so is calling
`Initialize` through the null pointer when the name is unknown.  Simplification: memory suffices. -/
def allocateActivity (p : ParsedActivity) : Outcome Act :=
  if p.func = "ConsumeCpu".toList then
    if p.arraySize < 0 then .crash else .ok (.consumeCpu 0)
  else if p.func = "PolluteDataCache".toList then
    if p.arraySize < 0 then .crash
    else if p.arraySize = 0 then .ub
    else .ok (.polluteData 0 ((List.range p.arraySize.toNat).map Int.ofNat) p.arrayReadsPerIteration)
  else if p.func = "PolluteInstructionCache".toList then
    .ok (.polluteCode 0 p.functionInvocationsPerIteration)
  else if p.func = "SleepFor".toList then .ok .sleepFor
  else if p.func = "SpinFor".toList then .ok .spinFor
  else .ub

/-- `data_array_[index]++`, activity.cc 275. -/
def bump (data : List Int) (index : Nat) : Outcome (List Int) :=
  match data[index]? with
  | none => .ub
  | some v => if InI32 (v + 1) then .ok (data.set index (v + 1)) else .ub

/-- The loop of `PolluteDataCache::DoActivity`, activity.cc 271-276, for the indices drawn. -/
def bumpAll : List Int → List Nat → Outcome (List Int)
  | data, [] => .ok data
  | data, i :: rest => (bump data i).bind fun d => bumpAll d rest

/-- `iteration_count_++` on an `int`, activity.cc 201, 269 and 358. -/
def nextCount (count : Int) : Outcome Int := if InI32 (count + 1) then .ok (count + 1) else .ub

/-- `DoActivity`, activity.cc 162, 181, 200-208, 268-278 and 357-365, for the indices that
`random_index_` gives. -/
def doActivity (a : Act) (draws : List Nat) : Outcome Act :=
  match a with
  | .consumeCpu count => (nextCount count).bind fun c => .ok (.consumeCpu c)
  | .polluteData count data reads =>
    (nextCount count).bind fun c => (bumpAll data draws).bind fun d => .ok (.polluteData c d reads)
  | .polluteCode count calls =>
    (nextCount count).bind fun c =>
      if draws.all (fun i => decide (i < functionCount)) then .ok (.polluteCode c calls) else .ub
  | .sleepFor => .ok .sleepFor
  | .spinFor => .ok .spinFor

/-- One run after another; each element is what is drawn in one run.
Code: activity.cc:162-209, 268-279, 357-366. -/
def runTimes (a : Act) : List (List Nat) → Outcome Act
  | [] => .ok a
  | draws :: rest => (doActivity a draws).bind fun a' => runTimes a' rest

/-- activity.cc 214, 284 and 371. -/
def iterationCount : Str := "iteration_count".toList

/-- `GetActivityLog`, activity.cc 164, 183, 210-218, 280-288 and 367-375. -/
def activityLog : Act → List (Str × Int)
  | .consumeCpu count => if count ≠ 0 then [(iterationCount, count)] else []
  | .polluteData count _ _ => if count ≠ 0 then [(iterationCount, count)] else []
  | .polluteCode count _ => if count ≠ 0 then [(iterationCount, count)] else []
  | .sleepFor => []
  | .spinFor => []

/-- `cumulative_activity_logs_`, distbench_engine.h 413-415: the map of maps is represented by one
map from the name of the activity configuration and that of the metric. -/
abbrev Totals := List ((Str × Str) × Int)

/-- `cumulative_activity_logs[config][metric] += value`, distbench_engine.cc 1619-1621. -/
def addMetric : Totals → Str × Str → Int → Outcome Totals
  | [], k, v => if InI64 v then .ok [(k, v)] else .ub
  | (k', t) :: rest, k, v =>
    if k' = k then (if InI64 (t + v) then .ok ((k', t + v) :: rest) else .ub)
    else (addMetric rest k v).bind fun r => .ok ((k', t) :: r)

/-- The loop over the metrics of one activity, distbench_engine.cc 1616-1622. -/
def addLog : Totals → Str → List (Str × Int) → Outcome Totals
  | t, _, [] => .ok t
  | t, config, (metric, v) :: rest => (addMetric t (config, metric) v).bind fun t' => addLog t' config rest

/-- `UpdateActivitiesLog`, distbench_engine.cc 1605-1625, for the actions of a list that have been
looked at and are activities: the configuration each of them names and the activity, `none` if it
was not created (the null pointer is dereferenced). -/
def updateLog : Totals → List (Str × Option Act) → Outcome Totals
  | t, [] => .ok t
  | _, (_, none) :: _ => .ub
  | t, (config, some a) :: rest => (addLog t config (activityLog a)).bind fun t' => updateLog t' rest

/-- The action lists that ended, in the order in which they took `cumulative_activity_log_mu_`
(distbench_engine.cc 1514-1515). -/
def totals : Totals → List (List (Str × Option Act)) → Outcome Totals
  | t, [] => .ok t
  | t, l :: rest => (updateLog t l).bind fun t' => totals t' rest

/-- `AddActivityLogs`, distbench_engine.cc 921-930: the value reported for a metric. -/
def reported (t : Totals) (config metric : Str) : Option Int :=
  (t.find? fun e => e.1 = (config, metric)).map (·.2)

end Distbench.Activity
