import Verif.Model.Traffic

/-! Specification of the traffic of a whole test. -/

namespace Distbench.Spec
open Traffic

/-- These steps are possible from the start of the test and lead to this state. -/
def TrafficRun (cfg : Config) (ops : List Op) (s : State) : Prop := run cfg (initial cfg) ops = some s

/-- All lists are over and all RPCs are back at their clients. -/
def TrafficOver (s : State) : Prop :=
  (∀ k ∈ s.jobs, k.over = true) ∧ ∀ c ∈ s.calls, c.stage = .completed

/-- Nothing more can happen. -/
def TrafficStuck (cfg : Config) (s : State) : Prop := ∀ op, step cfg s op = none

/-- `predicted l` is the number of RPCs of kind `r` that a run of the list `l` leads to: those of its
own actions, those made by the lists that handle these, and those of the lists that its actions run. -/
def Predicts (cfg : Config) (r : Nat) (predicted : Nat → Nat) : Prop :=
  ∀ l, predicted l = ((cfg.actions l).map fun x =>
    x.iters * match x.work with
      | .rpc q fan => fan * ((if q = r then 1 else 0) +
          match cfg.handler q with
          | none => 0
          | some l' => predicted l')
      | .list l' => predicted l'
      | .other => 0).sum

/-- How many RPCs of this kind were made. -/
def rpcsMade (s : State) (r : Nat) : Nat := s.calls.countP fun c => c.rpc = r

/-- No action has predicates. -/
def Unconditional (cfg : Config) : Prop := ∀ l, ∀ x ∈ cfg.actions l, x.conditional = false

/-- An iteration of an action of list `l` leads to a run of list `l'`. -/
def LeadsToList (cfg : Config) (l l' : Nat) : Prop :=
  ∃ x ∈ cfg.actions l, x.work = .list l' ∨ ∃ q fan, x.work = .rpc q fan ∧ cfg.handler q = some l'

/-- No list leads to itself: each one has a level above those of the lists it leads to. -/
def Levels (cfg : Config) (level : Nat → Nat) : Prop := ∀ l l', LeadsToList cfg l l' → level l' < level l

/-- What an engine accepts of a list: dependencies are prior actions (C28), and at least one iteration
may run at a time; and there are servers for every RPC. -/
def Sensible (cfg : Config) : Prop :=
  ∀ l a (x : Action), (cfg.actions l)[a]? = some x → (∀ d ∈ x.deps, d < a) ∧ 1 ≤ x.parallel ∧
    ∀ q fan, x.work = .rpc q fan → ∃ t, cfg.servers q t = true

/-- Engine `e` may run the list `l`. -/
inductive MayRun (cfg : Config) : Nat → Nat → Prop where
  | root {e l : Nat} : (e, l) ∈ cfg.roots → MayRun cfg e l
  | handler {e l q : Nat} : cfg.servers q e = true → cfg.handler q = some l → MayRun cfg e l
  | nested {e l l' : Nat} {x : Action} : MayRun cfg e l → x ∈ cfg.actions l → x.work = .list l' →
      MayRun cfg e l'

/-- No RPC goes to a higher layer of engines, and those to an engine whose threads are limited come
from a higher one. -/
def Layered (cfg : Config) (layer : Nat → Nat) : Prop :=
  ∀ e l, MayRun cfg e l → ∀ x ∈ cfg.actions l, ∀ q fan, x.work = .rpc q fan →
    ∀ t, cfg.servers q t = true → layer t ≤ layer e ∧ (cfg.threads t ≠ none → layer t < layer e)

/-- No action sends the response before the list ends. -/
def NoEarlyResponse (cfg : Config) : Prop := ∀ l, ∀ x ∈ cfg.actions l, x.responds = false

mutual
/-- The run `j` of a list is for the sake of the RPC `c`. -/
inductive JobBelow (s : State) (c : Nat) : Nat → Prop where
  | here {j : Nat} {k : Job} : s.jobs[j]? = some k → k.parent = .call c → JobBelow s c j
  | call {j c' : Nat} {k : Job} : s.jobs[j]? = some k → k.parent = .call c' → CallBelow s c c' →
      JobBelow s c j
  | action {j j' a i : Nat} {k : Job} : s.jobs[j]? = some k → k.parent = .action j' a i →
      JobBelow s c j' → JobBelow s c j

/-- The RPC `c'` was made for the sake of the RPC `c`. -/
inductive CallBelow (s : State) (c : Nat) : Nat → Prop where
  | made {c' : Nat} {r : Call} : s.calls[c']? = some r → JobBelow s c r.job → CallBelow s c c'
end

end Distbench.Spec
