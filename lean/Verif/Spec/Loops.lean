import Verif.Spec.WholeTime
import Verif.Spec.Iterations
import Verif.Spec.ActionList
import Verif.Model.Loops

/-! Vocabulary for the traffic of a whole test with the loops of the engines in full. -/

namespace Distbench.Spec
open Tables Services Whole

/-- No activities, no action that cancels the traffic, and sensible limits for the iterations of each action. -/
structure LoopTest (cfg : Config) : Prop where
  activities : ∀ a ∈ cfg.actions, ∀ n, a.kind ≠ .activity n
  cancel : ∀ a ∈ cfg.actions, a.cancelTrafficWhenDone = false
  limited : ∀ a ∈ cfg.actions, ∀ it, a.iterations = some it → 1 ≤ it.maxParallelIterations ∧
    match it.maxIterationCount with
    | some n => 1 ≤ n ∧ n < 2 ^ 31
    | none => it.maxDurationUs ≠ none ∧ it.maxParallelIterations < 2 ^ 31

/-- Each action does something, and each open loop has a maximal number of iterations. -/
structure EndableTest (cfg : Config) : Prop where
  kinds : ∀ a ∈ cfg.actions, a.kind = .none → a.responsePayloadOverride.isSome
  openLoops : ∀ a ∈ cfg.actions, ∀ it, a.iterations = some it → it.openLoopIntervalNs ≠ none →
    it.maxIterationCount ≠ none

/-- Each action with a loop has a maximal number of iterations. -/
def CountedLoops (cfg : Config) : Prop :=
  ∀ a ∈ cfg.actions, ∀ it, a.iterations = some it → it.maxIterationCount ≠ none

/-- The test goes on from one state to another. -/
inductive Leads (w : Test) (s : Loops.State) : Loops.State → Prop where
  | refl : Leads w s s
  | step {s1 s2 : Loops.State} : Leads w s s1 → Loops.Step w s1 s2 → Leads w s s2

/-- No number of iterations has left the range of an `int`. -/
def NumbersFit (s : Loops.State) : Prop :=
  ∀ k ∈ s.jobs, ∀ a u, k.under a = some u → u.state.overflow = false

/-- All runs of lists are over and all RPCs are back. -/
def LoopsOver (s : Loops.State) : Prop :=
  (∀ k ∈ s.jobs, k.main.phase = .done) ∧ ∀ c ∈ s.calls, c.stage = .completed

/-- The number of RPCs with this name that were made. -/
def rpcsNamed (cfg : Config) (s : Loops.State) (rpc : Str) : Nat :=
  s.calls.countP fun c => (cfg.rpcs[c.rpc]?).any fun r => r.name = rpc

/-- How many iterations the action at place `a` of a run has begun. -/
def loopIterations (k : Loops.Job) (a : Nat) : Nat :=
  match k.under a with
  | none => 0
  | some u => allStarts u.state.log

/-- `act` is the action at place `a` of the list that the run `k` runs. -/
def ActionAt (cfg : Config) (k : Loops.Job) (a : Nat) (act : Action) : Prop :=
  ∃ al name, cfg.actionLists[k.list]? = some al ∧ al.actionNames[a]? = some name ∧
    actionNamed cfg name = some act

/-- There was time for at most `n` iterations of each action with a time limit, in each run of its list. -/
def LoopTime (cfg : Config) (n : Nat) (s : Loops.State) : Prop :=
  ∀ k ∈ s.jobs, ∀ a act, ActionAt cfg k a act → hasTimeLimit act → loopIterations k a ≤ n

/-- No action sends the response before its list ends. -/
def RespondsLast (cfg : Config) : Prop := ∀ a ∈ cfg.actions, a.sendResponseWhenDone = false

mutual
/-- The run `j` of a list is for the sake of the RPC `c`. -/
inductive RunBelow (s : Loops.State) (c : Nat) : Nat → Prop where
  | here {j : Nat} {k : Loops.Job} : s.jobs[j]? = some k → k.parent = .call c → RunBelow s c j
  | call {j c' : Nat} {k : Loops.Job} : s.jobs[j]? = some k → k.parent = .call c' → RpcBelow s c c' →
      RunBelow s c j
  | action {j j' a n : Nat} {k : Loops.Job} : s.jobs[j]? = some k → k.parent = .action j' a n →
      RunBelow s c j' → RunBelow s c j

/-- The RPC `c'` was made for the sake of the RPC `c`. -/
inductive RpcBelow (s : Loops.State) (c : Nat) : Nat → Prop where
  | made {c' : Nat} {r : Traffic.Call} : s.calls[c']? = some r → RunBelow s c r.job → RpcBelow s c c'
end

end Distbench.Spec
