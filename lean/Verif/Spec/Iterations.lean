import Verif.Model.Iterations

/-! Vocabulary for the iterations of an action, in terms of its observable events. -/

namespace Distbench.Spec
open Iterations

/-- How often iteration `k` was started. -/
def starts (k : Int) : List Iterations.Event → Nat
  | [] => 0
  | .started k' _ _ :: rest => (if k' = k then 1 else 0) + starts k rest
  | _ :: rest => starts k rest

/-- How often iteration `k` ended. -/
def ends (k : Int) : List Iterations.Event → Nat
  | [] => 0
  | .ended k' :: rest => (if k' = k then 1 else 0) + ends k rest
  | _ :: rest => ends k rest

/-- How many iterations were started. -/
def allStarts : List Iterations.Event → Nat
  | [] => 0
  | .started _ _ _ :: rest => 1 + allStarts rest
  | _ :: rest => allStarts rest

/-- How many iterations ended. -/
def allEnds : List Iterations.Event → Nat
  | [] => 0
  | .ended _ :: rest => 1 + allEnds rest
  | _ :: rest => allEnds rest

/-- How often the action reported that it is done. -/
def reports : List Iterations.Event → Nat
  | [] => 0
  | .allDone :: rest => 1 + reports rest
  | _ :: rest => reports rest

/-- The number of iterations that have been started and have not ended. -/
def inFlight (log : List Iterations.Event) : Int := allStarts log - allEnds log

/-- Nothing of the action is under way: no iteration is running, ending or being started. -/
def Quiet (p : Params) (s : Iterations.State) : Prop := s.threads = [] ∧ s.issued = p.copies

/-- How many iterations `a` asks for; `none`: no limit. -/
def limitOf (a : Tables.Action) : Option Int :=
  match a.iterations with
  | none => some 1
  | some it => it.maxIterationCount

/-- `a` runs at most `par` iterations at a time and starts a new one when one ends; it has sensible
limits, and is not an activity. -/
structure ClosedLoop (a : Tables.Action) (par : Int) : Prop where
  notActivity : ∀ name, a.kind ≠ .activity name
  notOpen : (a.iterations.getD {}).openLoopIntervalNs = none
  parallel : (a.iterations.getD {}).maxParallelIterations = par
  positive : 1 ≤ par
  count : ∀ n, limitOf a = some n → 1 ≤ n ∧ n < 2 ^ 31
  unlimited : limitOf a = none → par < 2 ^ 31

/-- `a` has no time limit. -/
def NoTimeLimit (a : Tables.Action) : Prop := (a.iterations.getD {}).maxDurationUs = none

/-- The number of threads that are about to start an iteration, or have read the cancellation flag
as false and may go on to start one. -/
def aboutToStart : List Thread → Nat
  | [] => 0
  | .restart _ :: rest => 1 + aboutToStart rest
  | .read _ false :: rest => 1 + aboutToStart rest
  | _ :: rest => aboutToStart rest

/-- `a` starts an iteration every `period` nanoseconds, `n` in total, and is not an activity. -/
structure OpenLoop (a : Tables.Action) (period n : Int) : Prop where
  notActivity : ∀ name, a.kind ≠ .activity name
  interval : (a.iterations.getD {}).openLoopIntervalNs = some period
  count : limitOf a = some n
  sensible : 1 ≤ n ∧ n < 2 ^ 31

/-- `a` is an activity that is to be run `n` times. -/
structure RepeatedActivity (a : Tables.Action) (n : Int) : Prop where
  isActivity : ∃ name, a.kind = .activity name
  notOpen : (a.iterations.getD {}).openLoopIntervalNs = none
  positive : 1 ≤ (a.iterations.getD {}).maxParallelIterations
  count : limitOf a = some n
  sensible : 1 ≤ n ∧ n < 2 ^ 31

end Distbench.Spec
