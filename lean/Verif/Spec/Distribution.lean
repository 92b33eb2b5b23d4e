import Verif.Model.Distribution

/-! Specification vocabulary for distributions, over plain rational numbers. -/

namespace Distbench.Spec
open Dist

/-- A CDF given by its (probability, value) pairs is a valid cumulative distribution: non-empty,
values strictly increasing, probabilities never decreasing, starting at 0 or above, ending at 1. -/
def ValidCdf (pts : List (Rat × Int)) : Prop :=
  pts ≠ [] ∧ pts.Pairwise (fun a b => a.2 < b.2 ∧ a.1 ≤ b.1) ∧
  (∀ p ∈ pts.head?, 0 ≤ p.1) ∧ (∀ p ∈ pts.getLast?, p.1 = 1)

/-- A CDF point carrying a rational probability. -/
def cdfPoint (p : Rat × Int) : CdfPoint := ⟨.num p.1, p.2⟩

/-- A data point admits the value `x`. -/
def Admits (d : DataPoint) (x : Int) : Prop :=
  match d.exact with
  | some v => x = v
  | none => d.lower.getD 0 ≤ x ∧ x ≤ d.upper.getD 0

/-- The sum of rationals accumulated left to right with rounding. -/
def roundedSum (rnd : Rat → Rat) (qs : List Rat) : Rat := qs.foldl (fun acc q => rnd (acc + q)) 0

/-- Bounds that survive the conversion to 32 bits, in order. -/
def Bounds32 (d : DataPoint) : Prop :=
  d.exact = none → InI32 (d.lower.getD 0) ∧ InI32 (d.upper.getD 0) ∧ d.lower.getD 0 ≤ d.upper.getD 0

end Distbench.Spec
