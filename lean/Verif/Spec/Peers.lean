import Verif.Model.Peers
import Verif.Spec.Services
import Verif.Spec.Placement

/-! What the properties of connecting to peers say. -/

namespace Distbench.Spec
open Distbench.Services Distbench.Peers

/-- The services are accepted ones with distinct slash-free names, the engine was introduced to
exactly one endpoint, with an address, for every instance of every service, and is itself one of
the instances. -/
structure Introduced (inp : Input) : Prop where
  accepted : ∀ s ∈ inp.specs, ∃ raw, FieldsFit raw ∧ getCanonicalServiceSpec raw = .ok s
  counts : ∀ s ∈ inp.specs, 0 ≤ s.count.getD 0
  slashFree : ∀ s ∈ inp.specs, '/' ∉ s.name
  distinct : (inp.specs.map (·.name)).Nodup
  endpoints : ∃ names, allServiceInstances inp.specs = some names ∧ (inp.endpoints.map Prod.fst).Perm names
  addresses : ∀ e ∈ inp.endpoints, e.2.address ≠ []
  self : ∃ s ∈ inp.specs, s.name = inp.serviceName ∧ 0 ≤ inp.instance_ ∧ inp.instance_ < s.count.getD 0

/-- Instance `j` of the service at position `k` has this name. -/
def IsInstance (inp : Input) (k j : Nat) (name : Str) : Prop :=
  ∃ s, inp.specs[k]? = some s ∧ (j : Int) < s.count.getD 0 ∧ getInstanceName s j = some name

/-- The number of the instance among all instances of the test, in the order of the services. -/
def globalNumber (inp : Input) (k j : Nat) : Int := ((totalCount (inp.specs.take k) + j : Nat) : Int)

/-- The service at position `k` is one that this engine sends RPCs to. -/
def SendsTo (inp : Input) (k : Nat) : Prop := ∃ s, inp.specs[k]? = some s ∧ s.name ∈ inp.dependent

/-- Number of instances of the services that the engine sends RPCs to. -/
def targetCount (inp : Input) : Nat := totalCount (inp.specs.filter (fun s => s.name ∈ inp.dependent))

/-- Every connection is made, whatever the order in which the connections come about. -/
def AllConnect (w : World) (n : Nat) : Prop := ∀ i < n, w.setup i = none ∧ w.handle i = none

/-- Every connection attempt ends, once. -/
def EndsOnce (w : World) (n : Nat) : Prop := w.order.Perm (List.range n)

/-- The multi-server channels of the services that the engine sends RPCs to, in the order of the
configuration. -/
def channelsOf (inp : Input) : List (ServiceSpec × Channel) :=
  inp.services.flatMap fun s => if s.1.name ∈ inp.dependent then s.2.map (fun c => (s.1, c)) else []

/-- Instance `j` of the service belongs to the channel: it is selected by number, or its node's
attributes satisfy the constraints of the channel. -/
def InChannel (inp : Input) (s : ServiceSpec) (c : Channel) (j : Nat) : Prop :=
  (j : Int) < s.count.getD 0 ∧
  ((j : Int) ∈ c.selected ∨
   ∃ cl name e, c.constraints = some cl ∧ getInstanceName s j = some name ∧ (name, e) ∈ inp.endpoints ∧
     SatisfiesAll e.attributes cl)

/-- The moduli of the channel's constraints are usable. -/
def ChannelModuliOk (c : Channel) : Prop :=
  ∀ cl, c.constraints = some cl → ∀ cs ∈ cl, ∀ x ∈ cs, ModulusOk x

end Distbench.Spec
