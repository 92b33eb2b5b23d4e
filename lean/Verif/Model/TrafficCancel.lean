import Verif.Model.Traffic

/-! The traffic of a whole test that may be cancelled at any time, engine by engine, with closed loops only
(what cancelling an open loop does is in Props/OpenLoop.lean):
distbench_engine.cc:904-912 (CancelTraffic), 977-987 (RpcHandler), 1475-1489 (RunActionList), 1905-1960
(the first iterations of an action), 2044-2095 (FinishIteration).

Simplified, besides what Model/Traffic.lean says: an iteration that ends sees the cancellation at once
(in the code it may have looked just before); the main loop of a list may start actions for some time
until it sees the cancellation (in the code, until the end of its current pass); how long the grace period
is does not matter, only that it ends. -/

namespace Distbench.Traffic

/-- The traffic, the engines that are cancelled, and those of them whose grace period is over.
Code: distbench_engine.h:440-460 (canceled_, cancelation_time_). -/
structure CState where
  base : State
  cancelled : Nat → Bool := fun _ => false
  refusing : Nat → Bool := fun _ => false

/-- What can happen besides: an engine is cancelled; its grace period ends; an action ends on a cancelled
engine although it has iterations left; the main loop of a list sees the cancellation; a cancelled engine
refuses an RPC.  Code: distbench_engine.cc:904-912, 977-987, 1475-1489, 2044-2095. -/
inductive COp where
  | base (op : Op)
  | cancel (engine : Nat)
  | expire (engine : Nat)
  | stop (job action : Nat)
  | leave (job : Nat)
  | refuse (call : Nat)
  deriving DecidableEq, Repr

/-- Whether a cancellation leaves the step possible.  On a cancelled engine an action begins its first
iterations only (`iters - left` have begun already); and one that refuses RPCs does not handle them.
Code: distbench_engine.cc:977-987, 1905-1960, 2049-2070. -/
def allowed (cfg : Config) (s : CState) : Op → Bool
  | .iterate j a _ =>
    match s.base.jobs[j]? with
    | none => true
    | some job =>
      match (cfg.actions job.list)[a]?, job.acts[a]? with
      | some x, some (.running left) =>
        !s.cancelled job.engine || decide (x.iters - left < x.parallel)
      | _, _ => true
  | .deliver c =>
    match s.base.calls[c]? with
    | none => true
    | some call => !s.refusing call.target
  | _ => true

/-- One step; `none`: it cannot happen now.  Code: distbench_engine.cc:904-912 (cancel), 977-987 (refuse),
1481-1488 (leave), 2049-2080 (stop). -/
def cstep (cfg : Config) (s : CState) : COp → Option CState
  | .base op =>
    if allowed cfg s op then (step cfg s.base op).map fun b => { s with base := b } else none
  | .cancel e =>
    if s.cancelled e then none else some { s with cancelled := fun i => i == e || s.cancelled i }
  | .expire e =>
    if s.cancelled e && !s.refusing e then
      some { s with refusing := fun i => i == e || s.refusing i }
    else none
  | .stop j a =>
    match s.base.jobs[j]? with
    | none => none
    | some job =>
      match (cfg.actions job.list)[a]?, job.acts[a]? with
      | some x, some (.running left) =>
        if s.cancelled job.engine = true ∧ openIterations s.base j a x.iters = 0 ∧
            x.parallel ≤ x.iters - left then
          some { s with base :=
            { jobs := s.base.jobs.set j { job with acts := job.acts.set a .finished }
              calls := if job.early = some a then answer s.base.calls job.parent else s.base.calls } }
        else none
      | _, _ => none
  | .leave j =>
    match s.base.jobs[j]? with
    | none => none
    | some job =>
      if s.cancelled job.engine = true ∧ (job.acts.any fun x => x = .waiting) = true then
        some { s with base :=
          { jobs := s.base.jobs.set j
              { job with acts := job.acts.map fun x => if x = .waiting then .skipped else x }
            calls := s.base.calls } }
      else none
  | .refuse c =>
    match s.base.calls[c]? with
    | none => none
    | some call =>
      if s.refusing call.target = true ∧ call.stage = .sent then
        some { s with base :=
          { jobs := s.base.jobs
            calls := s.base.calls.set c { call with stage := .answered } } }
      else none

/-- A sequence of steps.  Code: distbench_engine.cc:904-2110. -/
def crun (cfg : Config) (s : CState) : List COp → Option CState
  | [] => some s
  | op :: ops =>
    match cstep cfg s op with
    | none => none
    | some s' => crun cfg s' ops

end Distbench.Traffic
