import Verif.Spec.Loops
import Verif.Model.LoopsCancel

/-! Vocabulary for whole tests whose traffic may be cancelled. -/

namespace Distbench.Spec
open Tables Services Whole

/-- No activities and no open loops, and sensible limits for the iterations of each action.  (Time limits are
not required, and actions may cancel the traffic.) -/
structure CancelTest (cfg : Config) : Prop where
  activities : ∀ a ∈ cfg.actions, ∀ n, a.kind ≠ .activity n
  closedLoops : ∀ a ∈ cfg.actions, ∀ it, a.iterations = some it → it.openLoopIntervalNs = none
  limited : ∀ a ∈ cfg.actions, ∀ it, a.iterations = some it → 1 ≤ it.maxParallelIterations ∧
    match it.maxIterationCount with
    | some n => 1 ≤ n ∧ n < 2 ^ 31
    | none => it.maxParallelIterations < 2 ^ 31

/-- The test goes on from one state to another. -/
inductive CLeads (w : Test) (s : LoopsCancel.State) : LoopsCancel.State → Prop where
  | refl : CLeads w s s
  | step {s1 s2 : LoopsCancel.State} : CLeads w s s1 → LoopsCancel.Step w s1 s2 → CLeads w s s2

/-- How far an RPC is. -/
def stageNumber : Traffic.Stage → Nat
  | .sent => 0
  | .queued => 1
  | .running => 2
  | .answered => 3
  | .completed => 4

/-- The traffic of all instances is cancelled. -/
def AllCancelled (cfg : Config) (s : LoopsCancel.State) : Prop :=
  ∀ e i, serviceOf cfg e = some i → s.cancelled e = true

/-- How many iterations of an action may be under way at once. -/
def parallelOf (a : Action) : Nat :=
  match a.iterations with
  | none => 1
  | some it => it.maxParallelIterations.toNat

/-- How many iterations the action at place `a` of the run `j` has begun, which may not have begun itself. -/
def iterationsOf (s : Loops.State) (j a : Nat) : Nat :=
  match s.jobs[j]? with
  | none => 0
  | some k => loopIterations k a

/-- No number of iterations has left the range of an `int`, and where there is no maximal number of iterations
none is near its end. -/
def RoomLeft (cfg : Config) (s : Loops.State) : Prop :=
  ∀ k ∈ s.jobs, ∀ a act u, ActionAt cfg k a act → k.under a = some u → u.state.overflow = false ∧
    ((∃ it, act.iterations = some it ∧ it.maxIterationCount = none) →
      loopIterations k a + parallelOf act < 2 ^ 31)

/-- What an action that is under way has done: the iterations that have begun, ended and been reported, the threads
that carry them, and the counts of them.  (Not the time, and not the flag that it is cancelled.) -/
def doneSoFar (u : Loops.Under) : List Iterations.Event × List Iterations.Thread × Int × Int × Int :=
  (u.state.log, u.state.threads, u.state.issued, u.state.next, u.state.finished)

/-- Two states in which the same runs of lists and RPCs are equally far: each RPC is at the same stage, the
thread of each run is in the same phase, and each of its actions has done as much. -/
def EquallyFar (s s' : Loops.State) : Prop :=
  s'.calls = s.calls ∧ s'.jobs.length = s.jobs.length ∧
  ∀ (j : Nat) k k', s.jobs[j]? = some k → s'.jobs[j]? = some k' →
    k'.list = k.list ∧ k'.entry = k.entry ∧ k'.main.phase = k.main.phase ∧
    ∀ a, (k'.main.acts a).called = (k.main.acts a).called ∧ (k'.main.acts a).closed = (k.main.acts a).closed ∧
      (k'.under a).map doneSoFar = (k.under a).map doneSoFar

/-- A schedule: states that follow each other without end.  (Time goes on when nothing else happens.) -/
structure Schedule (w : Test) (s : LoopsCancel.State) (f : Nat → LoopsCancel.State) : Prop where
  start : f 0 = s
  step : ∀ n, LoopsCancel.Step w (f n) (f (n + 1))

/-- A schedule in which it does not happen that from some moment on something could always be done and yet
nothing is. -/
def NotIdle (w : Test) (f : Nat → LoopsCancel.State) : Prop :=
  ∀ N, (∀ n, N ≤ n → ∃ s', LoopsCancel.Step w (f n) s' ∧ ¬ EquallyFar (f n).base s'.base) →
    ∃ n, N ≤ n ∧ ¬ EquallyFar (f n).base (f (n + 1)).base

/-- How far the thread of a list is, but for the rounds it makes: it looks at its actions and waits in turn, it
waits for the last actions after cancellation, it is about to answer, it is done, or it is aborted. -/
def roundsMade : ActionList.Phase → Nat
  | .scan _ => 0
  | .wait => 0
  | .checkCancel => 0
  | .drain => 1
  | .exit => 2
  | .done => 3
  | .crashed => 4

/-- Two states in which as much is done: each RPC is at the same stage, the same runs are as far but for
rounds of their threads, and of each run the same actions have started, wait to start, have reported and are
closed, and each has done as much. -/
def EquallyDone (s s' : Loops.State) : Prop :=
  s'.calls = s.calls ∧ s'.jobs.length = s.jobs.length ∧
  ∀ (j : Nat) k k', s.jobs[j]? = some k → s'.jobs[j]? = some k' →
    k'.list = k.list ∧ k'.entry = k.entry ∧ roundsMade k'.main.phase = roundsMade k.main.phase ∧
    ∀ a, (k'.main.acts a).started = (k.main.acts a).started ∧ (k'.main.acts a).waiting = (k.main.acts a).waiting ∧
      (k'.main.acts a).called = (k.main.acts a).called ∧ (k'.main.acts a).closed = (k.main.acts a).closed ∧
      (k'.under a).map doneSoFar = (k.under a).map doneSoFar

/-- A schedule of a test that nobody cancels: at each moment something happens, or nothing does. -/
structure LoopSchedule (w : Test) (s : Loops.State) (f : Nat → Loops.State) : Prop where
  start : f 0 = s
  step : ∀ n, f (n + 1) = f n ∨ Loops.Step w (f n) (f (n + 1))

/-- A schedule in which it does not happen that from some moment on something could always be brought about and
yet nothing is done. -/
def KeepsOn (w : Test) (f : Nat → Loops.State) : Prop :=
  ∀ N, (∀ n, N ≤ n → ∃ s', Leads w (f n) s' ∧ ¬ EquallyDone (f n) s') →
    ∃ n, N ≤ n ∧ ¬ EquallyDone (f n) (f (n + 1))

end Distbench.Spec
