import Verif.Model.Whole
import Verif.Spec.Tables
import Verif.Spec.Services
import Verif.Spec.Traffic

/-! Vocabulary for what the text of a traffic configuration says about the traffic, in terms of the names
in it.  Nothing here refers to the tables of the engines. -/

namespace Distbench.Spec
open Tables Services Whole

/-- The services are in canonical form, the engines of every service accepted the configuration, and
things of one kind have different names. -/
structure SoundTest (e : Env) (w : Test) : Prop where
  some_service : w.cfg.services ≠ []
  services : ∀ s ∈ w.cfg.services, ∃ raw, FieldsFit raw ∧ getCanonicalServiceSpec raw = .ok s
  tables : ∀ (i : Nat) s, w.cfg.services[i]? = some s → initTables e w.cfg s.name = .ok (w.tables i)
  distinct : DistinctNames w.cfg

/-- How many iterations an action has, if it has no other limit than their number. -/
def iterationCount (a : Action) : Nat :=
  match a.iterations with
  | none => 1
  | some it => (it.maxIterationCount.getD 0).toNat

/-- Only things whose number the configuration fixes: no predicates, no replay traces, no multi-server
channels, no action that cancels the traffic, and iterations limited by their number and not by time. -/
structure PlainTest (cfg : Config) : Prop where
  predicates : ∀ a ∈ cfg.actions, a.predicates = []
  cancel : ∀ a ∈ cfg.actions, a.cancelTrafficWhenDone = false
  kinds : ∀ a ∈ cfg.actions, (∀ n, a.kind ≠ .replay n) ∧ (a.kind = .none → a.responsePayloadOverride.isSome)
  counted : ∀ a ∈ cfg.actions, ∀ it, a.iterations = some it → it.maxDurationUs = none ∧
    (∃ n, it.maxIterationCount = some n ∧ 1 ≤ n ∧ n < 2 ^ 31) ∧ 1 ≤ it.maxParallelIterations
  activities : ∀ a ∈ cfg.actions, ∀ it n, a.iterations = some it → a.kind = .activity n →
    it.openLoopIntervalNs = none
  channels : ∀ r ∈ cfg.rpcs, r.multiServerChannelName = none

/-- Every iteration of the RPC `r` goes to `k` instances, whoever makes it: with the filter "all" to all
instances of the server service, or to all others if only that service itself makes the RPC; with the
filters that choose one, to one, unless there is no other. -/
def FanOut (cfg : Config) (r : RpcSpec) (k : Nat) : Prop :=
  ∃ s ∈ cfg.services, s.name = r.server ∧ 1 ≤ s.count.getD 0 ∧
    ((r.fanoutFilter ∈ ["".toList, "all".toList] ∧
        ((r.server ∉ r.client ∧ k = (s.count.getD 0).toNat) ∨
          ((∀ c ∈ r.client, c = r.server) ∧ k + 1 = (s.count.getD 0).toNat))) ∨
      (r.fanoutFilter ∈ ["random".toList, "random_single".toList, "round_robin".toList] ∧
        (r.server ∉ r.client ∨ 2 ≤ s.count.getD 0) ∧ k = 1))

/-- `fan` says for the name of each RPC to how many instances it goes. -/
def FanOuts (cfg : Config) (fan : Str → Nat) : Prop := ∀ r ∈ cfg.rpcs, FanOut cfg r (fan r.name)

/-- The action with this name. -/
def actionNamed (cfg : Config) (name : Str) : Option Action := cfg.actions.find? fun a => a.name = name

/-- How many RPCs named `rpc` an action leads to: those of its own iterations, those of the lists that
handle them, and those of the list that it runs. -/
def actionRpcs (fan predicted : Str → Nat) (rpc : Str) (a : Action) : Nat :=
  iterationCount a * match a.kind with
    | .rpc q => fan q * ((if q = rpc then 1 else 0) + predicted q)
    | .actionList l => predicted l
    | _ => 0

/-- `predicted l` is the number of RPCs named `rpc` that a run of the action list named `l` leads to. -/
def PredictsNames (cfg : Config) (fan : Str → Nat) (rpc : Str) (predicted : Str → Nat) : Prop :=
  ∀ l ∈ cfg.actionLists, predicted l.name =
    (l.actionNames.map fun n => ((actionNamed cfg n).map (actionRpcs fan predicted rpc)).getD 0).sum

/-- Each instance of a service that has an action list of its own name runs this list once. -/
def predictedTotal (cfg : Config) (predicted : Str → Nat) : Nat :=
  (cfg.services.map fun s =>
    if s.name ∈ cfg.actionLists.map (·.name) then (s.count.getD 0).toNat * predicted s.name else 0).sum

/-- The number of RPCs with this name that were made. -/
def madeNamed (cfg : Config) (s : Traffic.State) (rpc : Str) : Nat :=
  s.calls.countP fun c => (cfg.rpcs[c.rpc]?).any fun r => r.name = rpc

/-- A run of the list named `l` may lead to one of the list named `l'`. -/
def NameLeads (cfg : Config) (l l' : Str) : Prop :=
  ∃ al ∈ cfg.actionLists, al.name = l ∧ ∃ n ∈ al.actionNames, ∃ a ∈ cfg.actions, a.name = n ∧
    (a.kind = .rpc l' ∨ a.kind = .actionList l')

/-- No list leads to itself. -/
def NameLevels (cfg : Config) (level : Str → Nat) : Prop := ∀ l l', NameLeads cfg l l' → level l' < level l

/-- The instances of the service named `s` may run the list named `l`: it has the service's name, or the
name of an RPC that the service serves, or an action of another such list runs it. -/
inductive MayRunName (cfg : Config) : Str → Str → Prop where
  | own {s : ServiceSpec} : s ∈ cfg.services → MayRunName cfg s.name s.name
  | serves {r : RpcSpec} : r ∈ cfg.rpcs → MayRunName cfg r.server r.name
  | nested {s l : Str} {al : ActionList} {a : Action} : MayRunName cfg s al.name → al ∈ cfg.actionLists →
      a ∈ cfg.actions → a.name ∈ al.actionNames → a.kind = .actionList l → MayRunName cfg s l

/-- Every service is a client of the RPCs that it makes. -/
def ClientsDeclared (cfg : Config) : Prop :=
  ∀ s al a r, MayRunName cfg s al.name → al ∈ cfg.actionLists → a ∈ cfg.actions → a.name ∈ al.actionNames →
    r ∈ cfg.rpcs → a.kind = .rpc r.name → s ∈ r.client

/-- RPCs never go from one service to a higher one, and an engine whose threads are limited gets RPCs only
from higher services. -/
def LayeredServices (w : Test) (layer : Str → Nat) : Prop :=
  ∀ r ∈ w.cfg.rpcs, ∀ c ∈ r.client, layer r.server ≤ layer c ∧
    ∀ (e i : Nat) s, serviceOf w.cfg e = some i → w.cfg.services[i]? = some s → s.name = r.server →
      w.threads e ≠ none → layer r.server < layer c

/-- Nothing more can happen in the test. -/
def StuckTest (w : Test) (s : Traffic.State) : Prop := ∀ op s', ¬ Whole.Step w s op s'

/-- `engines` lists the engines of all instances, in some order. -/
def AllInstances (cfg : Config) (engines : List Nat) : Prop :=
  engines.Perm (List.range (cfg.services.map fun s => (s.count.getD 0).toNat).sum)

/-- No service has a slash in its name. -/
def PlainNames (cfg : Config) : Prop := ∀ s ∈ cfg.services, '/' ∉ s.name

/-- No list limits the number of samples. -/
def UnlimitedSamples (cfg : Config) : Prop := ∀ l ∈ cfg.actionLists, l.maxRpcSamples ≤ 0

end Distbench.Spec
