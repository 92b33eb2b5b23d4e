import Verif.Spec.Whole
import Verif.Spec.TrafficTime
import Verif.Model.WholeTime

/-! Vocabulary for what the text of a traffic configuration with time limits says about the traffic. -/

namespace Distbench.Spec
open Tables Services Whole

/-- Only things whose number the configuration and the time limits fix: as `PlainTest`, but the iterations of
an action may be limited by time instead of by number, or by both. -/
structure TimeTest (cfg : Config) : Prop where
  predicates : ∀ a ∈ cfg.actions, a.predicates = []
  cancel : ∀ a ∈ cfg.actions, a.cancelTrafficWhenDone = false
  kinds : ∀ a ∈ cfg.actions, (∀ n, a.kind ≠ .replay n) ∧ (a.kind = .none → a.responsePayloadOverride.isSome)
  limited : ∀ a ∈ cfg.actions, ∀ it, a.iterations = some it → 1 ≤ it.maxParallelIterations ∧
    match it.maxIterationCount with
    | some n => 1 ≤ n ∧ n < 2 ^ 31
    | none => it.maxDurationUs ≠ none ∧ it.maxParallelIterations < 2 ^ 31
  activities : ∀ a ∈ cfg.actions, ∀ it n, a.iterations = some it → a.kind = .activity n →
    it.openLoopIntervalNs = none
  channels : ∀ r ∈ cfg.rpcs, r.multiServerChannelName = none

/-- `n`, or the maximal number of iterations if that is less. -/
def upToCount (it : Iterations) (n : Nat) : Nat :=
  match it.maxIterationCount with
  | none => n
  | some c => min n c.toNat

/-- The action may be ended by its time limit. -/
def hasTimeLimit (a : Action) : Prop := ∃ it, a.iterations = some it ∧ it.maxDurationUs ≠ none

/-- How many iterations an action has at least: all that its number allows if there is no time limit;
otherwise one in an open loop, and in a closed loop as many as may be under way together. -/
def fewestIterations (a : Action) : Nat :=
  match a.iterations with
  | none => 1
  | some it =>
    match it.maxDurationUs with
    | none => (it.maxIterationCount.getD 0).toNat
    | some _ => if it.openLoopIntervalNs.isSome then 1 else upToCount it it.maxParallelIterations.toNat

/-- How many it has at most, if there is time for `n`. -/
def mostIterations (n : Nat) (a : Action) : Nat :=
  match a.iterations with
  | none => 1
  | some it =>
    match it.maxDurationUs with
    | none => (it.maxIterationCount.getD 0).toNat
    | some _ => upToCount it n

/-- `predicted l` is the number of RPCs named `rpc` that a run of the action list named `l` leads to, if each
action `a` has `iterations a` iterations. -/
def PredictsBy (cfg : Config) (iterations : Action → Nat) (fan : Str → Nat) (rpc : Str)
    (predicted : Str → Nat) : Prop :=
  ∀ l ∈ cfg.actionLists, predicted l.name = (l.actionNames.map fun n =>
    match actionNamed cfg n with
    | none => 0
    | some a => iterations a * match a.kind with
        | .rpc q => fan q * ((if q = rpc then 1 else 0) + predicted q)
        | .actionList l' => predicted l'
        | _ => 0).sum

/-- There was time for at most `n` iterations of each action with a time limit, in each run of its list. -/
def TimeFor (cfg : Config) (n : Nat) (ops : List Traffic.TOp) (s : Traffic.TState) : Prop :=
  ∀ (j : Nat) (job : Traffic.Job) (al : ActionList) (a : Nat) (name : Str) (act : Action),
    s.base.jobs[j]? = some job → cfg.actionLists[job.list]? = some al → al.actionNames[a]? = some name →
    actionNamed cfg name = some act → hasTimeLimit act → timedIterations ops j a ≤ n

/-- Nothing more can happen in the test, except that time limits pass. -/
def StuckInTime (w : Test) (s : Traffic.TState) : Prop :=
  ∀ op s', (∀ j a, op ≠ .late j a) → ¬ TStep w s op s'

end Distbench.Spec
