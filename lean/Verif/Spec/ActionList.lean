import Verif.Model.ActionList

/-! Vocabulary for the executions of action lists, in terms of the list's description and of the
sequence of observable events (newest first). -/

namespace Distbench.Spec
open ActionList Tables

/-- `c` describes an action list of a configuration that was accepted for service `svc`, together
with the RPCs of that configuration. -/
def Loaded (cfg : Tables.Config) (svc : Str) (c : Ctx) : Prop :=
  ∃ (e : Env) (t : Tables.Tables) (k : Nat), initTables e cfg svc = .ok t ∧
    t.actionLists[k]? = some c.entry ∧ c.rpcTable = t.rpcTable

/-- Dependencies point backwards (which `C28_accepted` shows for accepted configurations). -/
def Backwards (c : Ctx) : Prop := ∀ i, ∀ d ∈ c.deps i, d < i

/-- The action may send the response early: it is marked so, or is the only one. -/
def MayRespond (c : Ctx) (i : Nat) : Prop :=
  ∃ a, c.entry.listActions[i]? = some a ∧
    (a.proto.sendResponseWhenDone = true ∨ c.entry.listActions.length = 1)

/-- The action has a delay distribution. -/
def Delayed (c : Ctx) (i : Nat) : Prop :=
  ∃ a, c.entry.listActions[i]? = some a ∧ a.delayDistributionIndex ≠ -1

/-- The event starts (or skips) action `i`. -/
def IsStart (i : Nat) (e : Event) : Prop := e = .skipped i ∨ ∃ t, e = .initiated i t

def StartedIn (i : Nat) (log : List Event) : Prop := ∃ e ∈ log, IsStart i e

def IsResponse (e : Event) : Prop := ∃ b o, e = .response b o

/-- The size distribution an action sets for the response when it runs: that of an action which
does nothing but name a response payload. -/
def overrideOf (c : Ctx) (i : Nat) : Int :=
  match c.entry.listActions[i]? with
  | none => -1
  | some a =>
    match a.proto.kind with
    | .none => a.responsePayloadOverrideIndex
    | _ => -1

/-- Of the actions that ran, the override of the one that finished last among those that have
one; -1 if there is none. -/
def lastOverride (c : Ctx) : List Event → Int
  | [] => -1
  | .finished i :: earlier =>
    if overrideOf c i ≠ -1 ∧ .skipped i ∉ earlier then overrideOf c i else lastOverride c earlier
  | _ :: earlier => lastOverride c earlier

/-- Each predicate probability decides whether the predicate or its negation holds. -/
def Holds (probabilities : List (Str × Rat)) (draw : Str → Rat) (p : Str) : Prop :=
  (∃ q, (p, q) ∈ probabilities ∧ draw p ≤ q) ∨
  ∃ n q, p = '!' :: n ∧ (n, q) ∈ probabilities ∧ ¬ draw n ≤ q

/-- An action is to be skipped if one of its predicates does not hold or an action it depends on
is to be skipped. -/
inductive ToSkip (c : Ctx) (holds : Str → Prop) : Nat → Prop where
  | predicate {i a p} : c.entry.listActions[i]? = some a → p ∈ a.proto.predicates → ¬ holds p →
      ToSkip c holds i
  | dependency {i d} : d ∈ c.deps i → ToSkip c holds d → ToSkip c holds i

/-- Any number of steps. -/
inductive Steps (c : Ctx) : State → State → Prop where
  | refl {s} : Steps c s s
  | step {s s' s''} : Steps c s s' → Step c s' s'' → Steps c s s''

/-- An infinite execution in which the thread running the list gets its turns, every action that was
started finishes, and the clock advances as long as the list makes passes over its actions. -/
structure Fair (c : Ctx) (σ : Nat → State) : Prop where
  start : ∃ now canceled, σ 0 = init now canceled
  step : ∀ n, Step c (σ n) (σ (n + 1)) ∨ σ (n + 1) = σ n
  turns : ∀ n, (∀ m ≥ n, ∃ s', MainStep c (σ m) s') → ∃ m ≥ n, MainStep c (σ m) (σ (m + 1))
  ends : ∀ n i, StartedIn i (σ n).log → ∃ m, .finished i ∈ (σ m).log
  forwards : ∀ n, (σ n).now ≤ (σ (n + 1)).now
  clock : ∀ time n, ∃ m ≥ n, time ≤ (σ m).now ∨ (σ m).phase = .drain ∨ (σ m).phase = .exit ∨
    (σ m).phase = .done ∨ (σ m).phase = .crashed

end Distbench.Spec
