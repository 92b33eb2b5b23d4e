import Verif.Spec.Traffic
import Verif.Model.TrafficTime

/-! Specification of the traffic of a whole test with time limits. -/

namespace Distbench.Spec
open Traffic

/-- These steps are possible from the start of the test and lead to this state. -/
def TimedRun (cfg : Config) (ops : List TOp) (s : TState) : Prop :=
  trun cfg { base := initial cfg } ops = some s

/-- Nothing more can happen, except that time limits pass. -/
def TimedStuck (cfg : Config) (s : TState) : Prop :=
  ∀ op, (∀ j a, op ≠ .late j a) → tstep cfg s op = none

/-- How many iterations of an action of a run of a list begin in these steps. -/
def timedIterations (ops : List TOp) (j a : Nat) : Nat :=
  ops.countP fun
    | .base (.iterate i b _) => i == j && b == a
    | _ => false

/-- How many of these steps are steps of the traffic. -/
def timedSteps (ops : List TOp) : Nat :=
  ops.countP fun
    | .late _ _ => false
    | _ => true

/-- The test with other numbers of iterations. -/
def withIterations (n : Action → Nat) (cfg : Config) : Config :=
  { cfg with actions := fun l => (cfg.actions l).map fun x => { x with iters := n x } }

/-- The test in which every action with a time limit makes only the iterations that begin in any case. -/
def fewest (cfg : Config) : Config :=
  withIterations (fun x => match x.timed with
    | none => x.iters
    | some n => min n x.iters) cfg

/-- The test in which every action with a time limit makes at most `n` iterations. -/
def atMost (n : Nat) (cfg : Config) : Config :=
  withIterations (fun x => match x.timed with
    | none => x.iters
    | some _ => min n x.iters) cfg

/-- In these steps no action `x` begins more than `n x` iterations in a run of its list. -/
def BeginsAtMost (cfg : Config) (n : Action → Nat) (ops : List TOp) (s : TState) : Prop :=
  ∀ (j : Nat) (job : Job) (a : Nat) (x : Action), s.base.jobs[j]? = some job →
    (cfg.actions job.list)[a]? = some x → timedIterations ops j a ≤ n x

/-- In these steps no action with a time limit begins more than `n` iterations in a run of its list. -/
def LimitedTo (cfg : Config) (n : Nat) (ops : List TOp) (s : TState) : Prop :=
  ∀ (j : Nat) (job : Job) (a : Nat) (x : Action), s.base.jobs[j]? = some job →
    (cfg.actions job.list)[a]? = some x → x.timed ≠ none → timedIterations ops j a ≤ n

/-- `D l` is the number of steps of a run of the list `l`, with all that it leads to: its end; the start and
the end of each action; and for each iteration its beginning, three steps for each RPC that a list handles
(and the steps of this list), two for each other RPC, and the steps of a list that it runs. -/
def CountsSteps (cfg : Config) (D : Nat → Nat) : Prop :=
  ∀ l, D l = 1 + ((cfg.actions l).map fun x =>
    2 + x.iters * (1 + match x.work with
      | .rpc q fan => fan * (match cfg.handler q with
          | none => 2
          | some l' => 3 + D l')
      | .list l' => D l'
      | .other => 0)).sum

end Distbench.Spec
