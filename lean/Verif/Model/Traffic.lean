import Verif.Model.Basic

/-! The traffic of a whole test: engines that run action lists, RPCs between them, and the lists that
handle these RPCs.  distbench_engine.cc:880-905 (RunTraffic), 977-1049 (RpcHandler), 1309-1523
(RunActionList), 1791-1990 (actions and their iterations), distbench_threadpool.cc:24-340.

Simplified: every RPC is delivered and completed (network failures are in Model/Grpc.lean,
Model/Homa.lean and Model/Mercury.lean); nothing is cancelled (see Model/TrafficCancel.lean); iterations
are bounded by a count and not by time (see Model/TrafficTime.lean); replay traces are left out; activities and payload overrides are `other`; delays and start
times of open loops are left to the schedule; the waits of the main thread of a list are left out, so an
action counts as finished as soon as its last iteration is (Model/ActionList.lean has the details).  The
counting of iterations is in Model/Iterations.lean, the choice of targets in Model/Fanout.lean. -/

namespace Distbench.Traffic

/-- What an iteration of an action does: RPCs of one kind to `fan` servers; a run of an action list;
or something that needs no other engine.  Code: distbench_engine.cc:1791-1905 (InitiateAction). -/
inductive Work where
  | rpc (rpc fan : Nat)
  | list (list : Nat)
  | other
  deriving DecidableEq, Repr

/-- An action.  `iters` iterations, at most `parallel` of them at a time (for an open loop, `iters`);
`responds`: `send_response_when_done`; `conditional`: it has predicates; `timed`: whether a time limit
may end it before its last iteration, and how many iterations begin in any case (only
Model/TrafficTime.lean uses this).
Code: distbench.proto (Action, Iterations), distbench_engine.h:180-215, distbench_engine.cc:1908-1966. -/
structure Action where
  deps : List Nat := []
  work : Work
  iters : Nat := 1
  parallel : Nat := 1
  responds : Bool := false
  conditional : Bool := false
  timed : Option Nat := none
  deriving DecidableEq, Repr

/-- A test.  `handler`: the list that handles an RPC, if there is one; `servers`: which engines an RPC
may go to; `threads`: the size of the thread pool in which an engine's protocol driver runs handlers
(`none`: as many as needed, that is the elastic pool and the gRPC inline server; `some n`: the simple
pool of n threads); `roots`: the engines whose service has a list of its own name.
Code: distbench_engine.cc:886-901, 1018-1019, distbench_threadpool.cc:323-342,
protocol_driver_grpc.cc:634-640. -/
structure Config where
  actions : Nat → List Action
  handler : Nat → Option Nat
  servers : Nat → Nat → Bool
  threads : Nat → Option Nat
  roots : List (Nat × Nat)

/-- How far an action of a running list is; `left` iterations are still to be started.
Code: distbench_engine.h:230-275 (ActionState). -/
inductive Act where
  | waiting
  | running (left : Nat)
  | finished
  | skipped
  deriving DecidableEq, Repr

/-- Why a list runs: traffic was started; for an RPC; for an iteration of an action.
Code: distbench_engine.cc:897-899, 1038-1048, 1853-1859. -/
inductive Parent where
  | root
  | call (id : Nat)
  | action (job action iter : Nat)
  deriving DecidableEq, Repr

/-- A run of an action list.  `early`: the action whose end sends the response.
Code: distbench_engine.h:277-330 (ActionListState), distbench_engine.cc:1324, 1405-1433. -/
structure Job where
  engine : Nat
  list : Nat
  parent : Parent
  acts : List Act
  early : Option Nat := none
  over : Bool := false
  deriving DecidableEq, Repr

/-- Where an RPC is: on its way; in the queue of the server's thread pool; handled by a list; answered;
back at the client.  Code: distbench_engine.cc:977-1049, 1981-2110. -/
inductive Stage where
  | sent
  | queued
  | running
  | answered
  | completed
  deriving DecidableEq, Repr

/-- An RPC, made by an iteration of an action of a run.  Code: distbench_engine.cc:1981-2110
(RunRpcActionIteration). -/
structure Call where
  rpc : Nat
  target : Nat
  job : Nat
  action : Nat
  iter : Nat
  stage : Stage := .sent
  deriving DecidableEq, Repr

/-- All runs of lists and all RPCs so far, in the order of their beginning.
Code: distbench_engine.h:340-460. -/
structure State where
  jobs : List Job
  calls : List Call := []
  deriving DecidableEq, Repr

/-- A run of a list that begins.  Code: distbench_engine.cc:1309-1357. -/
def newJob (cfg : Config) (engine list : Nat) (parent : Parent) : Job :=
  { engine := engine, list := list, parent := parent, acts := (cfg.actions list).map fun _ => .waiting }

/-- The start of the traffic.  Code: distbench_engine.cc:886-901. -/
def initial (cfg : Config) : State :=
  { jobs := cfg.roots.map fun r => newJob cfg r.1 r.2 .root }

/-- What can happen: the main loop of a list starts or skips an action; an iteration of an action
begins, with these targets; an action ends; an RPC reaches its server; a thread of the pool takes it; a
list ends; a response reaches the client.  Code: distbench_engine.cc:977-1049, 1358-1500, 1905-2110. -/
inductive Op where
  | start (job action : Nat)
  | skip (job action : Nat)
  | iterate (job action : Nat) (targets : List Nat)
  | finish (job action : Nat)
  | deliver (call : Nat)
  | dispatch (call : Nat)
  | endJob (job : Nat)
  | complete (call : Nat)
  deriving DecidableEq, Repr

/-- Whether an action has ended.  Code: distbench_engine.cc:1377-1380. -/
def Act.ended : Act → Bool
  | .finished | .skipped => true
  | _ => false

/-- All dependencies have ended.  Code: distbench_engine.cc:1374-1384. -/
def ready (job : Job) (x : Action) : Bool :=
  x.deps.all fun d => match job.acts[d]? with
    | some a => a.ended
    | none => false

/-- Some dependency was skipped.  Code: distbench_engine.cc:1382. -/
def dropped (job : Job) (x : Action) : Bool :=
  x.deps.any fun d => job.acts[d]? = some .skipped

/-- Which action sends the response, once this one starts: the first one with
`send_response_when_done`, or the only one of the list.  Code: distbench_engine.cc:1405-1408. -/
def designate (cfg : Config) (job : Job) (x : Action) (a : Nat) : Option Nat :=
  if job.early = none ∧ ((cfg.actions job.list).length = 1 ∨ x.responds = true) then some a
  else job.early

/-- The response is sent.  Code: distbench_engine.cc:1424, 1505 (SendResponseIfSet). -/
def answer (calls : List Call) : Parent → List Call
  | .call c => calls.modify c fun r => { r with stage := .answered }
  | _ => calls

/-- An iteration that has not ended: one of its RPCs is not back, or the list it runs is not over.
Code: distbench_engine.cc:1907-1960 (FinishIteration), 2090-2110. -/
def busy (s : State) (j a i : Nat) : Bool :=
  (s.calls.any fun c => c.job = j && c.action = a && c.iter = i && !(c.stage = .completed)) ||
    (s.jobs.any fun k => k.parent = .action j a i && !k.over)

/-- The number of iterations of an action that have begun and not ended; they are numbered downwards.
Code: distbench_engine.cc:1907-1960. -/
def openIterations (s : State) (j a iters : Nat) : Nat :=
  (List.range iters).countP fun i => busy s j a i

/-- A list that runs in the thread pool of the protocol driver: one that handles an RPC.
Code: distbench_engine.cc:1043-1048, protocol_driver_grpc.cc:607-610, 726-729. -/
def Job.inPool (k : Job) : Bool :=
  match k.parent with
  | .call _ => true
  | _ => false

/-- Whether the pool of an engine has a free thread.  Code: distbench_threadpool.cc:74-125 (the simple
pool), 128-255 (the elastic pool). -/
def freeThread (cfg : Config) (s : State) (engine : Nat) : Bool :=
  match cfg.threads engine with
  | none => true
  | some n => decide ((s.jobs.countP fun k => k.engine = engine && k.inPool && !k.over) < n)

/-- An action that is waiting, and may be started or skipped.  Code: distbench_engine.cc:1358-1400. -/
def startable (cfg : Config) (s : State) (j a : Nat) : Option (Job × Action) :=
  match s.jobs[j]? with
  | none => none
  | some job =>
    match (cfg.actions job.list)[a]? with
    | none => none
    | some x =>
      if job.acts[a]? = some .waiting ∧ job.over = false ∧ ready job x = true then some (job, x) else none

/-- The RPCs of an iteration.  Code: distbench_engine.cc:1981-2060. -/
def newCalls (q j a i : Nat) (targets : List Nat) : List Call :=
  targets.map fun t => { rpc := q, target := t, job := j, action := a, iter := i }

/-- One step; `none`: it cannot happen now.  Code: distbench_engine.cc:977-1049 (deliver), 1358-1400,
1434-1461 (start, skip), 1907-2110 (iterate, finish, complete), 1043-1048 (dispatch), 1462-1512
(endJob). -/
def step (cfg : Config) (s : State) : Op → Option State
  | .start j a =>
    match startable cfg s j a with
    | none => none
    | some (job, x) =>
      if dropped job x then none
      else
        some { s with
          jobs := s.jobs.set j
            { job with
              acts := job.acts.set a (.running x.iters)
              early := designate cfg job x a } }
  | .skip j a =>
    match startable cfg s j a with
    | none => none
    | some (job, x) =>
      if dropped job x ∨ x.conditional = true then
        some {
          jobs := s.jobs.set j
            { job with
              acts := job.acts.set a .skipped
              early := designate cfg job x a }
          calls := if designate cfg job x a = some a then answer s.calls job.parent else s.calls }
      else none
  | .iterate j a targets =>
    match s.jobs[j]? with
    | none => none
    | some job =>
      match (cfg.actions job.list)[a]?, job.acts[a]? with
      | some x, some (.running (left + 1)) =>
        if openIterations s j a x.iters < x.parallel then
          let jobs := s.jobs.set j { job with acts := job.acts.set a (.running left) }
          match x.work with
          | .rpc q fan =>
            if targets.length = fan ∧ (targets.all fun t => cfg.servers q t) then
              some { jobs := jobs, calls := s.calls ++ newCalls q j a left targets }
            else none
          | .list l =>
            if targets = [] then
              some { s with jobs := jobs ++ [newJob cfg job.engine l (.action j a left)] }
            else none
          | .other => if targets = [] then some { s with jobs := jobs } else none
        else none
      | _, _ => none
  | .finish j a =>
    match s.jobs[j]? with
    | none => none
    | some job =>
      match (cfg.actions job.list)[a]?, job.acts[a]? with
      | some x, some (.running 0) =>
        if openIterations s j a x.iters = 0 then
          some {
            jobs := s.jobs.set j { job with acts := job.acts.set a .finished }
            calls := if job.early = some a then answer s.calls job.parent else s.calls }
        else none
      | _, _ => none
  | .deliver c =>
    match s.calls[c]? with
    | none => none
    | some call =>
      if call.stage = .sent then
        match cfg.handler call.rpc with
        | none => some { s with calls := s.calls.set c { call with stage := .answered } }
        | some _ => some { s with calls := s.calls.set c { call with stage := .queued } }
      else none
  | .dispatch c =>
    match s.calls[c]? with
    | none => none
    | some call =>
      match cfg.handler call.rpc with
      | none => none
      | some l =>
        if call.stage = .queued ∧ freeThread cfg s call.target then
          some {
            jobs := s.jobs ++ [newJob cfg call.target l (.call c)]
            calls := s.calls.set c { call with stage := .running } }
        else none
  | .endJob j =>
    match s.jobs[j]? with
    | none => none
    | some job =>
      if job.over = false ∧ job.acts.all Act.ended then
        some {
          jobs := s.jobs.set j { job with over := true }
          calls := if job.early = none then answer s.calls job.parent else s.calls }
      else none
  | .complete c =>
    match s.calls[c]? with
    | none => none
    | some call =>
      if call.stage = .answered then
        some { s with calls := s.calls.set c { call with stage := .completed } }
      else none

/-- A sequence of steps.  Code: distbench_engine.cc:977-2110. -/
def run (cfg : Config) (s : State) : List Op → Option State
  | [] => some s
  | op :: ops =>
    match step cfg s op with
    | none => none
    | some s' => run cfg s' ops

end Distbench.Traffic
