import Verif.Model.Services

/-! Small specification vocabulary for services, written without the model's functions: the shape
of a grid and membership in it.  (It only uses the data types of the model.) -/

namespace Distbench.Spec
open Services

/-- Number of cells of the grid a specification describes (an absent size is 1). -/
def gridCells (s : ServiceSpec) : Int := s.xSize.getD 1 * s.ySize.getD 1 * s.zSize.getD 1

/-- A coordinate lies in the grid. -/
def InGrid (s : ServiceSpec) (g : GridIndex) : Prop :=
  0 ≤ g.x ∧ g.x < s.xSize.getD 1 ∧ 0 ≤ g.y ∧ g.y < s.ySize.getD 1 ∧ 0 ≤ g.z ∧ g.z < s.zSize.getD 1

/-- All fields hold values of their protobuf type `int32`. -/
def FieldsFit (s : ServiceSpec) : Prop :=
  (∀ c, s.count = some c → InI32 c) ∧ (∀ c, s.xSize = some c → InI32 c) ∧
  (∀ c, s.ySize = some c → InI32 c) ∧ (∀ c, s.zSize = some c → InI32 c)

/-- The documented rules (traffic_config.proto:20-48): sizes are given in the order x, y, z, every
size given is positive, and the count, if given, is the number of grid cells. -/
def WellShaped (s : ServiceSpec) : Prop :=
  (s.zSize.isSome → s.ySize.isSome) ∧ (s.ySize.isSome → s.xSize.isSome) ∧
  (∀ n, s.xSize = some n → 0 < n) ∧ (∀ n, s.ySize = some n → 0 < n) ∧
  (∀ n, s.zSize = some n → 0 < n) ∧
  (s.xSize.isSome → ∀ c, s.count = some c → c = gridCells s)

/-- Sum of the counts of a list of services: the number of instances declared. -/
def totalCount : List ServiceSpec → Nat
  | [] => 0
  | s :: rest => (s.count.getD 0).toNat + totalCount rest

/-- A setting usable as a string: named `n`, with a string value and no integer value. -/
def StringEntry (n : Str) (v : Str) (s : NamedSetting) : Prop :=
  s.name = some n ∧ s.stringValue = some v ∧ s.int64Value = none

/-- A setting usable as an integer: named `n`, with an integer value and no string value. -/
def IntEntry (n : Str) (v : Int) (s : NamedSetting) : Prop :=
  s.name = some n ∧ s.int64Value = some v ∧ s.stringValue = none

end Distbench.Spec
