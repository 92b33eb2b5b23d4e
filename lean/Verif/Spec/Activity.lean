import Verif.Model.Activity

/-! What the properties of activities say. -/

namespace Distbench.Spec
open Distbench.Tables Distbench.Activity

/-- The activities that report how often they ran. -/
def ReportsRuns (func : Str) : Prop :=
  func = "ConsumeCpu".toList ∨ func = "PolluteDataCache".toList ∨ func = "PolluteInstructionCache".toList

instance (func : Str) : Decidable (ReportsRuns func) := inferInstanceAs (Decidable (_ ∨ _ ∨ _))

/-- What the random numbers drawn in one run may be: as many as there are accesses, each within the
array, or within the table of 10000 functions. -/
def LegalDraws (p : ParsedActivity) (draws : List Nat) : Prop :=
  (p.func = "PolluteDataCache".toList → draws.length = p.arrayReadsPerIteration.toNat ∧
    ∀ i ∈ draws, (i : Int) < p.arraySize) ∧
  (p.func = "PolluteInstructionCache".toList → draws.length = p.functionInvocationsPerIteration.toNat ∧
    ∀ i ∈ draws, i < 10000)

/-- An activity action of a list: the configuration it names, what that configuration says, and what
was drawn in each run. -/
structure Job where
  config : Str
  parsed : ParsedActivity
  runs : List (List Nat)

/-- The activity was created and ran as the action says, and this is what became of it. -/
def Ran (j : Job) (a : Act) : Prop := (allocateActivity j.parsed).bind (fun a0 => runTimes a0 j.runs) = .ok a

/-- How often the activities of a configuration that count their runs have run, over these
actions. -/
def runsOf (config : Str) : List Job → Nat
  | [] => 0
  | j :: rest => (if j.config = config ∧ ReportsRuns j.parsed.func then j.runs.length else 0) + runsOf config rest

end Distbench.Spec
