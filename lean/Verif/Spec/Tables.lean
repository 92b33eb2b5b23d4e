import Verif.Model.Tables

/-! What it means for a traffic configuration to refer only to things it defines, written without
the engine's tables. -/

namespace Distbench.Spec
open Tables

/-- A payload of that name exists and has a size distribution that exists. -/
def SizedPayload (cfg : Config) (name : Str) : Prop :=
  ∃ p ∈ cfg.payloads, p.name = name ∧
    ∃ d, p.sizeDistributionName = some d ∧ ∃ c ∈ cfg.sizeDistributions, c.name = d

/-- The thing an action of some kind runs exists. -/
def TargetExists (cfg : Config) : ActionKind → Prop
  | .none => True
  | .rpc n => ∃ r ∈ cfg.rpcs, r.name = n
  | .actionList n => ∃ l ∈ cfg.actionLists, l.name = n
  | .activity n => ∃ a ∈ cfg.activities, a.name = n
  | .replay n => ∃ t ∈ cfg.traces, t.name = n

/-- The action at position `j` of the list refers only to existing things, and its dependencies
are listed before it. -/
structure RefersBackwards (cfg : Config) (l : ActionList) (j : Nat) (a : Action) : Prop where
  deps : ∀ d ∈ a.dependencies, ∃ k < j, l.actionNames[k]? = some d
  target : TargetExists cfg a.kind
  delay : ∀ d, a.delayDistributionName = some d → ∃ c ∈ cfg.delayDistributions, c.name = d
  request : ∀ p, a.requestPayloadOverride = some p → SizedPayload cfg p
  response : ∀ p, a.responsePayloadOverride = some p → SizedPayload cfg p

/-- All names of a kind are different. -/
structure DistinctNames (cfg : Config) : Prop where
  actions : (cfg.actions.map (·.name)).Nodup
  lists : (cfg.actionLists.map (·.name)).Nodup
  rpcs : (cfg.rpcs.map (·.name)).Nodup
  services : (cfg.services.map (·.name)).Nodup
  inList : ∀ l ∈ cfg.actionLists, l.actionNames.Nodup

end Distbench.Spec
