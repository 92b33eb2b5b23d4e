import Verif.Model.Traffic

/-! The traffic of a whole test whose actions may have time limits: distbench_engine.cc:1908-1966
(max_duration_us), 1968-1994 (StartOpenLoopIteration), 2044-2095 (FinishIteration).

Simplified, besides what Model/Traffic.lean says: there is no clock, the time limit of an action may pass
at any moment after its start; an iteration that ends sees at once that it has passed (in the code it may
have looked just before). -/

namespace Distbench.Traffic

/-- The traffic, and the actions (by run of a list and place in it) whose time limits have passed.
Code: distbench_engine.h:230-275 (time_limit, next_iteration_time). -/
structure TState where
  base : State
  late : Nat → Nat → Bool := fun _ _ => false

/-- What can happen besides: the time limit of an action passes; an action ends because of it.
Code: distbench_engine.cc:1980-1983, 2053-2079. -/
inductive TOp where
  | base (op : Op)
  | late (job action : Nat)
  | stop (job action : Nat)
  deriving DecidableEq, Repr

/-- Whether the time limits leave the step possible.  An action whose limit has passed begins only the
iterations that begin in any case: in a closed loop those that begin together at its start, in an open
loop the first one (`iters - left` have begun already).
Code: distbench_engine.cc:1956-1964, 1975-1990, 2056-2073. -/
def inTime (cfg : Config) (s : TState) : Op → Bool
  | .iterate j a _ =>
    match s.base.jobs[j]? with
    | none => true
    | some job =>
      match (cfg.actions job.list)[a]?, job.acts[a]? with
      | some x, some (.running left) => !s.late j a || decide (x.iters - left < x.timed.getD 0)
      | _, _ => true
  | _ => true

/-- One step; `none`: it cannot happen now.  Code: distbench_engine.cc:1908-1966, 1980-1983 (late),
2053-2088 (stop). -/
def tstep (cfg : Config) (s : TState) : TOp → Option TState
  | .base op =>
    if inTime cfg s op then (step cfg s.base op).map fun b => { s with base := b } else none
  | .late j a =>
    match s.base.jobs[j]? with
    | none => none
    | some job =>
      match (cfg.actions job.list)[a]?, job.acts[a]? with
      | some x, some (.running _) =>
        if x.timed ≠ none ∧ s.late j a = false then
          some { s with late := fun i b => (i == j && b == a) || s.late i b }
        else none
      | _, _ => none
  | .stop j a =>
    match s.base.jobs[j]? with
    | none => none
    | some job =>
      match (cfg.actions job.list)[a]?, job.acts[a]? with
      | some x, some (.running left) =>
        if s.late j a = true ∧ openIterations s.base j a x.iters = 0 ∧ x.timed.getD 0 ≤ x.iters - left then
          some { s with base :=
            { jobs := s.base.jobs.set j { job with acts := job.acts.set a .finished }
              calls := if job.early = some a then answer s.base.calls job.parent else s.base.calls } }
        else none
      | _, _ => none

/-- A sequence of steps.  Code: distbench_engine.cc:977-2110. -/
def trun (cfg : Config) (s : TState) : List TOp → Option TState
  | [] => some s
  | op :: ops =>
    match tstep cfg s op with
    | none => none
    | some s' => trun cfg s' ops

end Distbench.Traffic
