import Verif.Model.Tables

/-! Model of the iterations of one started action: the last part of `InitiateAction`,
`StartOpenLoopIteration`, `RunActivity`, `StartNewIterations`, `FinishIteration` and
`StartIteration` (distbench_engine.cc:1907-2102) as a transition system.

What an iteration does (an RPC fan-out, a nested action list, a trace, an activity) is not modelled
here: a running iteration may complete, that is call `FinishIteration`, at any time, on any thread.
`FinishIteration` takes three steps: reading the cancellation flag, the section under
`iteration_mutex`, and what follows it. -/

namespace Distbench.Iterations
open Tables

/-- `absl::Time`: a point in time in nanoseconds, or one of the two infinities.
Code: distbench_engine.h:195-227. -/
inductive Time where
  | past
  | at (ns : Int)
  | future
  deriving DecidableEq

/-- `a < b`.  Code: distbench_engine.cc:1970-1994, 2045-2091. -/
def Time.lt : Time → Time → Bool
  | .past, .past => false
  | .past, _ => true
  | .at _, .past => false
  | .at a, .at b => a < b
  | .at _, .future => true
  | .future, _ => false

/-- `t + d` for a finite duration.  Code: distbench_engine.cc:1907-1994. -/
def Time.add : Time → Int → Time
  | .at t, d => .at (t + d)
  | t, _ => t

/-- Conversion of an `int64_t` to `int`, which is modulo 2^32.  Code: distbench_engine.cc:2000-2018. -/
def narrow (n : Int) : Int := (n + 2 ^ 31) % 2 ^ 32 - 2 ^ 31

/-- What the iterations of an action depend on.
Code: distbench_engine.h:195-227; distbench_engine.cc:1907-1968. -/
structure Params where
  limit : Int
  timeLimit : Time
  copies : Int
  openLoop : Bool
  periodNs : Int
  exponential : Bool
  activity : Bool
  listWarmup : Bool
  warmupIterations : Int
  deriving DecidableEq

/-- distbench_engine.cc:1907-1928, 1953-1954 and 1959-1960: the limits of the action `a`, when it is
initiated at the time `now` in a list that is (or is not) run for a warmup RPC.  Without
`iterations` the defaults of the message apply. -/
def params (a : Action) (now : Int) (listWarmup : Bool) : Params :=
  let it := a.iterations.getD {}
  let limit := match a.iterations with
    | none => 1
    | some i => i.maxIterationCount.getD (2 ^ 63 - 1)
  { limit := limit
    timeLimit := match it.maxDurationUs with
      | none => .future
      | some us => .at (now + 1000 * us)
    copies := narrow (min it.maxParallelIterations limit)
    openLoop := it.openLoopIntervalNs.isSome
    periodNs := it.openLoopIntervalNs.getD 0
    exponential := it.openLoopIntervalDistribution = "exponential".toList
    activity := match a.kind with | .activity _ => true | _ => false
    listWarmup := listWarmup
    warmupIterations := it.warmupIterations }

/-- One iteration that is under way: `running k`: number `k` has been started and has not completed;
`read k c`: it has completed, and `FinishIteration` has read the cancellation flag as `c`;
`restart k`: the thread is about to start iteration `k`; `calling`: it is about to call the
`all_done_callback`.  Code: distbench_engine.cc:2045-2102. -/
inductive Thread where
  | running (k : Int)
  | read (k : Int) (canceled : Bool)
  | restart (k : Int)
  | calling
  deriving DecidableEq

/-- Observable events.  Code: distbench_engine.cc:1970-2102. -/
inductive Event where
  | started (k : Int) (warmup : Bool) (now : Int)
  | ended (k : Int)
  | allDone
  deriving DecidableEq

/-- `next_iteration`, `finished_iterations` and `next_iteration_time` of the action
(distbench_engine.h:202-205), how many of the first `copies` iterations have been started, the
iterations under way, cancellation, the clock, and whether an `int` has overflowed.  `log` is newest
first. -/
structure State where
  next : Int
  finished : Int
  nextTime : Time
  issued : Int
  threads : List Thread
  canceled : Bool
  now : Int
  overflow : Bool
  log : List Event

/-- The beginning, distbench_engine.cc:1929-1967.  `nextTime` is the time of the first open-loop
iteration (computed by `firstTime`).  `StartNewIterations` reserves a vector of `count` elements
(2004), which throws if the number is negative. -/
def begin (p : Params) (nextTime : Time) (now : Int) (canceled : Bool) : Outcome State :=
  if p.openLoop then
    if p.activity then .crash
    else .ok { next := 0, finished := 0, nextTime := nextTime, issued := p.copies, threads := [],
               canceled := canceled, now := now, overflow := false, log := [] }
  else if p.copies < 0 then .crash
  else .ok { next := p.copies, finished := 0,
             nextTime := if p.activity then .past else .future, issued := 0, threads := [],
             canceled := canceled, now := now, overflow := false, log := [] }

/-- The time of the first open-loop iteration, distbench_engine.cc:1938-1957; `spread` is
`fraction * period` as computed in floating point.  `absl::Floor` rounds down to a multiple of the
period; for a zero period the remainder is infinite and the result the infinite past. -/
def firstTime (distribution : Str) (period now spread : Int) : Time :=
  let floor : Time := if period = 0 then .past else .at (now / period * period)
  if distribution = "sync_burst".toList then floor.add period
  else if distribution = "sync_burst_spread".toList then floor.add (period + spread)
  else .at now

/-- The end of `InitiateAction` for the action `a`, distbench_engine.cc:1907-1968, when the clock
reads `now`.  Simplification: the clock is read once. -/
def initiate (a : Action) (now : Int) (listWarmup canceled : Bool) (spread : Int) : Outcome State :=
  let p := params a now listWarmup
  let it := a.iterations.getD {}
  begin p (firstTime it.openLoopIntervalDistribution p.periodNs now spread) now canceled

/-- What a thread does after the section of `FinishIteration` under the mutex.
Code: distbench_engine.cc:2045-2091. -/
inductive Decision where
  | allDone
  | restart (k : Int)
  | free

/-- Whether the action is done, distbench_engine.cc:2050-2067. -/
def isDone (p : Params) (canceled : Bool) (now : Int) (s : State) : Bool :=
  canceled ||
  if s.next = p.limit then true
  else if !p.openLoop then Time.lt p.timeLimit (.at now)
  else Time.lt p.timeLimit s.nextTime

/-- The section of `FinishIteration` under the mutex and the decision it leads to,
distbench_engine.cc:2048-2090; `none` if an `int` overflows. -/
def finishLocked (p : Params) (canceled : Bool) (s : State) : Option (Int × Int × Decision) :=
  let done := isDone p canceled s.now s
  let another := !done && !p.openLoop
  let finished := s.finished + 1
  let next := if another then s.next + 1 else s.next
  if ¬ InI32 finished ∨ ¬ InI32 next then none
  else some (next, finished,
    if done && next - finished == 0 then .allDone
    else if !p.activity && another then .restart s.next
    else .free)

/-- `StartIteration`, distbench_engine.cc:2093-2102: the warmup flag. -/
def warmupOf (p : Params) (k : Int) : Bool := p.listWarmup || k < p.warmupIterations

/-- An iteration is started: the thread goes on running it.  Code: distbench_engine.cc:2093-2102. -/
def startIteration (p : Params) (k : Int) (s : State) : State :=
  { s with log := .started k (warmupOf p k) s.now :: s.log }

/-- The thread as it leaves the section under the mutex.  Code: distbench_engine.cc:2045-2091. -/
def leave (s : State) (l1 l2 : List Thread) : Decision → State
  | .allDone => { s with threads := l1 ++ .calling :: l2 }
  | .restart k => { s with threads := l1 ++ .restart k :: l2 }
  | .free => { s with threads := l1 ++ l2 }

/-- The section of `StartOpenLoopIteration` under the mutex, distbench_engine.cc:1976-1992: the time
moves on by `gap`; the second component tells which iteration to start. -/
def openTick (p : Params) (gap : Int) (s : State) : Time × Option Int :=
  let t := s.nextTime.add gap
  let t := if Time.lt p.timeLimit t then .future else t
  (t, if s.next ≥ p.limit then none else some s.next)

/-- Steps that are not cancellation or the passing of time.
`issue` and `run` happen on the thread of the list: the loop of `StartNewIterations` (2012-2017) and
the visit of an activity (1364, 1996-1998).  An activity runs on that thread, so its iterations do
not overlap, and none is run once the list has seen that the action is done (1565-1568).
`tick` is the visit of an open-loop action (1362-1366).
Code: distbench_engine.cc:1362-1366, 1970-2102. -/
inductive Work (p : Params) : State → State → Prop where
  | issue {s} : s.overflow = false → p.openLoop = false → s.issued < p.copies →
      (p.activity = true → s.threads = []) →
      Work p s (startIteration p s.issued
        { s with issued := s.issued + 1, threads := s.threads ++ [.running s.issued] })
  | complete {s l1 l2 k} : s.overflow = false → s.threads = l1 ++ .running k :: l2 →
      Work p s { s with threads := l1 ++ .read k s.canceled :: l2, log := .ended k :: s.log }
  | locked {s l1 l2 k b next finished d} : s.overflow = false → s.threads = l1 ++ .read k b :: l2 →
      finishLocked p b s = some (next, finished, d) →
      Work p s (leave { s with next := next, finished := finished } l1 l2 d)
  | overflow {s l1 l2 k b} : s.overflow = false → s.threads = l1 ++ .read k b :: l2 →
      finishLocked p b s = none → Work p s { s with overflow := true }
  | restart {s l1 l2 k} : s.overflow = false → s.threads = l1 ++ .restart k :: l2 →
      Work p s (startIteration p k { s with threads := l1 ++ .running k :: l2 })
  | allDone {s l1 l2} : s.overflow = false → s.threads = l1 ++ .calling :: l2 →
      Work p s { s with threads := l1 ++ l2, log := .allDone :: s.log }
  | run {s} : s.overflow = false → p.activity = true → p.openLoop = false → s.issued = p.copies →
      s.threads = [] → .allDone ∉ s.log →
      Work p s (startIteration p 0 { s with threads := [.running 0] })
  | tick {s k} (gap : Int) : s.overflow = false → p.openLoop = true →
      Time.lt s.nextTime (.at s.now) = true →
      (if p.exponential then gap ≥ 0 else gap = p.periodNs) → (openTick p gap s).2 = some k →
      InI32 (s.next + 1) →
      Work p s (startIteration p k
        { s with nextTime := (openTick p gap s).1, next := s.next + 1
                 threads := s.threads ++ [.running k] })
  | tickOverflow {s k} (gap : Int) : s.overflow = false → p.openLoop = true →
      Time.lt s.nextTime (.at s.now) = true → (openTick p gap s).2 = some k →
      ¬ InI32 (s.next + 1) → Work p s { s with overflow := true }

/-- Steps of the outside world: cancellation, the passing of time, and visits of an open-loop
action that start nothing.  Code: distbench_engine.cc:904-912, 1362-1366, 1970-1994. -/
inductive Idle (p : Params) : State → State → Prop where
  | cancel {s} : Idle p s { s with canceled := true }
  | time {s} (now : Int) : s.now ≤ now → Idle p s { s with now := now }
  | tick {s} (gap : Int) : s.overflow = false → p.openLoop = true →
      Time.lt s.nextTime (.at s.now) = true →
      (if p.exponential then gap ≥ 0 else gap = p.periodNs) → (openTick p gap s).2 = none →
      Idle p s { s with nextTime := (openTick p gap s).1 }

/-- The states after `n` steps that are not idle, from `s0`.  Code: distbench_engine.cc:1907-2102. -/
inductive Run (p : Params) (s0 : State) : Nat → State → Prop where
  | start : Run p s0 0 s0
  | work {n s s'} : Run p s0 n s → Work p s s' → Run p s0 (n + 1) s'
  | idle {n s s'} : Run p s0 n s → Idle p s s' → Run p s0 n s'

/-- `s` is a state of the action `a` after `n` steps that are not idle; it was initiated at the
time `now`.  Code: distbench_engine.cc:1907-2102. -/
def Executes (a : Action) (now : Int) (listWarmup canceled : Bool) (n : Nat) (s : State) : Prop :=
  ∃ spread s0, initiate a now listWarmup canceled spread = .ok s0 ∧
    Run (params a now listWarmup) s0 n s

/-! ### the warmup flag along chains of RPCs and lists -/

/-- How an iteration leads to another action list: by an RPC whose handler is a list
(distbench_engine.cc:2142 and 1044-1047), or as a nested list (1834-1858). -/
inductive Via where
  | rpc
  | list

/-- A list that is being run: the `warmup` field of its incoming request, and its own flag.
Code: distbench_engine.cc:1311-1346. -/
structure ListWarmup where
  request : Bool
  list : Bool

/-- `RunActionList`, distbench_engine.cc:1323. -/
def enterList (forceWarmup requestWarmup : Bool) : ListWarmup :=
  { request := requestWarmup, list := forceWarmup || requestWarmup }

/-- `RunTraffic` runs the list of the service with an empty request, distbench_engine.cc:885-898. -/
def topLevel : ListWarmup := enterList false false

/-- The list that iteration `k` of an action with `warmupIterations` leads to.  The request of a
nested list is a copy of the one of the list it is in (1838-1841); the request of an RPC carries the
flag of the iteration (2142), and RPC handlers do not force it.
Code: distbench_engine.cc:1838-1841, 2093-2102, 2142. -/
def hop (l : ListWarmup) (via : Via) (k warmupIterations : Int) : ListWarmup :=
  let warmup := l.list || k < warmupIterations
  match via with
  | .rpc => enterList false warmup
  | .list => enterList warmup l.request

end Distbench.Iterations
