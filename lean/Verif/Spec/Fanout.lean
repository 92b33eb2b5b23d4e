import Verif.Model.Fanout
import Verif.Spec.Services
import Verif.Spec.Placement

/-! Specification vocabulary for fan-out: which instances a sender may address, and where they are
in the server's grid. -/

namespace Distbench.Spec
open Services Fanout

/-- `t` is the number of the instance of service `s` at coordinate `g`. -/
def At (s : ServiceSpec) (g : GridIndex) (t : Int) : Prop :=
  InGrid s g ∧ t = g.x + s.xSize.getD 1 * (g.y + s.ySize.getD 1 * g.z)

/-- `t` may be addressed: it is an instance of the server service and, inside one service, not the
sender itself. -/
def Eligible (c : Ctx) (t : Int) : Prop :=
  0 ≤ t ∧ t < c.numServers ∧ (c.excludeSelf = true → t ≠ c.instance_)

/-- What the engine establishes before an iteration runs, plus the contracts of the random sources:
the server service is an accepted specification with at least one instance and one peer per
instance, a sender inside the server service stands at its own coordinate. -/
structure Valid (c : Ctx) : Prop where
  accepted : ∃ raw, FieldsFit raw ∧ getCanonicalServiceSpec raw = .ok c.peer
  count : c.numServers = c.peer.count.getD 0
  some_server : 1 ≤ c.numServers
  self_in : c.excludeSelf = true → At c.peer c.grid c.instance_
  grid : 0 ≤ c.grid.x ∧ 0 ≤ c.grid.y ∧ 0 ≤ c.grid.z
  counter : 0 ≤ c.counter
  draw : ∀ hi, 0 ≤ hi → 0 ≤ c.draw hi ∧ c.draw hi ≤ hi
  shuffle : ∀ l, (c.shuffle l).Perm l

/-- No axis of the server's grid has 2^30 or more instances (so that adding two coordinates stays
within `int`). -/
def ModerateSize (s : ServiceSpec) : Prop :=
  s.xSize.getD 1 < 2 ^ 30 ∧ s.ySize.getD 1 < 2 ^ 30 ∧ s.zSize.getD 1 < 2 ^ 30

/-- The coordinate of `g` on an axis. -/
def coord (a : Axis) (g : GridIndex) : Int :=
  match a with | .x => g.x | .y => g.y | .z => g.z

/-- The extent of the grid along an axis. -/
def extent (a : Axis) (s : ServiceSpec) : Int :=
  match a with | .x => s.xSize.getD 1 | .y => s.ySize.getD 1 | .z => s.zSize.getD 1

/-- `g` with the coordinate on the axis replaced. -/
def setCoord (a : Axis) (g : GridIndex) (v : Int) : GridIndex :=
  match a with | .x => { g with x := v } | .y => { g with y := v } | .z => { g with z := v }

/-- The next coordinate along an axis, wrapping around. -/
def ringNext (a : Axis) (s : ServiceSpec) (g : GridIndex) : GridIndex :=
  setCoord a g ((coord a g + 1) % extent a s)

/-- The previous coordinate along an axis, wrapping around. -/
def ringPrev (a : Axis) (s : ServiceSpec) (g : GridIndex) : GridIndex :=
  setCoord a g ((coord a g - 1) % extent a s)

/-- Alternating rings go backwards in odd rows: odd y for rings along x, odd x for the others. -/
def OddRow (a : Axis) (g : GridIndex) : Prop :=
  match a with | .x => g.y % 2 = 1 | .y => g.x % 2 = 1 | .z => g.x % 2 = 1

/-- The number of instances a sender may address. -/
def eligibleCount (c : Ctx) : Nat := (if c.excludeSelf then c.numServers - 1 else c.numServers).toNat

/-- The values of a random draw for the filter `random`. -/
def InDraw (c : Ctx) (v : Int) : Prop := 0 ≤ v ∧ v < eligibleCount c

/-- A random source that answers `v` when asked for a uniform number among as many as there are
eligible instances, and nonsense to any other question. -/
def drawing (c : Ctx) (v : Int) : Ctx :=
  { c with draw := fun hi => if hi = (eligibleCount c : Int) - 1 then v else -1 }

/-- Texts with a character between them. -/
def separated (c : Char) : List Str → Str
  | [] => []
  | [a] => a
  | a :: b :: l => a ++ c :: separated c (b :: l)

/-- The text of one entry of a stochastic filter: a probability, as `atof` reads it, and a number of targets,
with a colon between them. -/
def EntryText (atof : Str → Option Rat) (text : Str) (d : StochasticDist) : Prop :=
  ∃ p n, text = p ++ ':' :: n ∧ ':' ∉ p ∧ ':' ∉ n ∧ ',' ∉ text ∧ atof p = some d.probability ∧
    0 ≤ d.probability ∧ d.probability ≤ 1 ∧ DenotesInt n d.nbTargets ∧ 0 ≤ d.nbTargets ∧ d.nbTargets < 2 ^ 31

/-- The texts of several entries. -/
def EntriesText (atof : Str → Option Rat) : List Str → List StochasticDist → Prop
  | [], [] => True
  | e :: es, d :: ds => EntryText atof e d ∧ EntriesText atof es ds
  | _, _ => False

/-- The text of a stochastic filter: its entries, at least one, with commas between them. -/
def StochasticText (atof : Str → Option Rat) (text : Str) (ds : List StochasticDist) : Prop :=
  ∃ entries, text = "stochastic{".toList ++ separated ',' entries ++ ['}'] ∧ ds ≠ [] ∧ EntriesText atof entries ds

end Distbench.Spec
