import Verif.Spec.Traffic
import Verif.Model.TrafficCancel

/-! Specification of the cancellation of a whole test. -/

namespace Distbench.Spec
open Traffic

/-- These steps are possible from the start of the test and lead to this state. -/
def CancelRun (cfg : Config) (ops : List COp) (s : CState) : Prop :=
  crun cfg { base := initial cfg } ops = some s

/-- How many iterations of an action of a run of a list begin in these steps. -/
def iterationsBegun (ops : List COp) (j a : Nat) : Nat :=
  ops.countP fun
    | .base (.iterate i b _) => i == j && b == a
    | _ => false

/-- The engine has a list of its own to run, or serves an RPC. -/
def TakesPart (cfg : Config) (e : Nat) : Prop :=
  (∃ l, (e, l) ∈ cfg.roots) ∨ ∃ q, cfg.servers q e = true

/-- All engines of the test are cancelled and their grace periods are over. -/
def AllRefuse (cfg : Config) (s : CState) : Prop :=
  ∀ e, TakesPart cfg e → s.cancelled e = true ∧ s.refusing e = true

/-- How many of these steps are steps of the traffic. -/
def trafficSteps (ops : List COp) : Nat :=
  ops.countP fun
    | .cancel _ => false
    | .expire _ => false
    | _ => true

/-- Nothing more can happen, except that further engines are cancelled or their grace periods end. -/
def CancelStuck (cfg : Config) (s : CState) : Prop :=
  ∀ op, (∀ e, op ≠ .cancel e ∧ op ≠ .expire e) → cstep cfg s op = none

/-- No list runs itself, directly or through lists that it runs: each has a level above those of the lists
that its actions run.  (Its RPCs may lead back to it.) -/
def NestLevels (cfg : Config) (level : Nat → Nat) : Prop :=
  ∀ l, ∀ x ∈ cfg.actions l, ∀ l', x.work = .list l' → level l' < level l

/-- `D l` steps are enough for a run of the list `l` on a cancelled engine if all RPCs are refused: its end;
the start and the end of each action; and the iterations that the action may begin, with two steps for each
of their RPCs and `D l'` for a list that they run. -/
def Drains (cfg : Config) (D : Nat → Nat) : Prop :=
  ∀ l, D l = 1 + ((cfg.actions l).map fun x =>
    2 + x.parallel * (1 + match x.work with
      | .rpc _ fan => fan * 2
      | .list l' => D l'
      | .other => 0)).sum

/-- What is enough for all the lists that are not over and the RPCs that are not back. -/
def drainBound (cfg : Config) (D : Nat → Nat) (s : State) : Nat :=
  (s.jobs.map fun k => if k.over then 0 else D k.list).sum +
  (s.calls.map fun c =>
    if c.stage = .completed then 0
    else 2 + match cfg.handler c.rpc with
      | none => 0
      | some l => D l).sum

end Distbench.Spec
