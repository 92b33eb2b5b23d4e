import Verif.Model.Basic

/-! Model of distribution validation, canonicalization and sampling:
distbench_utils.cc:469-645, joint_distribution_sample_generator.cc. -/

namespace Distbench.Dist

/-- A `float`/`double` value: not-a-number or a rational.  Simplifications: infinities and signed
zeros are not represented; rounding of arithmetic results is an arbitrary function `rnd` that every
operation producing a new float applies (comparisons do not round).
Code: joint_distribution.proto; distbench_utils.cc:469-532. -/
inductive F where
  | nan
  | num (q : Rat)
  deriving DecidableEq

/-- Floating `<` (false when either side is NaN).  Code: distbench_utils.cc:469-532. -/
def F.lt : F → F → Bool
  | .num a, .num b => decide (a < b)
  | _, _ => false

/-- Floating `==` (false when either side is NaN).  Code: distbench_utils.cc:494-532. -/
def F.eq : F → F → Bool
  | .num a, .num b => decide (a = b)
  | _, _ => false

/-- Floating addition with rounding.  Code: distbench_utils.cc:469-492. -/
def F.add (rnd : Rat → Rat) : F → F → F
  | .num a, .num b => .num (rnd (a + b))
  | _, _ => .nan

/-- Floating subtraction with rounding.
Code: joint_distribution_sample_generator.cc:35-72; distbench_utils.cc:576-645. -/
def F.sub (rnd : Rat → Rat) : F → F → F
  | .num a, .num b => .num (rnd (a - b))
  | _, _ => .nan

/-- `fabs(cdf - 1.0) > 1e-6` (the subtraction is done in `double`; its rounding is not modelled).
Code: distbench_utils.cc:469-532. -/
def F.farFromOne : F → Bool
  | .nan => false
  | .num q => decide (q - 1 > 1 / 1000000) || decide (1 - q > 1 / 1000000)

/-- `message DataPoint`, joint_distribution.proto:19-26. -/
structure DataPoint where
  exact : Option Int := none
  lower : Option Int := none
  upper : Option Int := none
  deriving DecidableEq

/-- `message PmfPoint`, joint_distribution.proto:29-34; an absent `pmf` reads as 0. -/
structure PmfPoint where
  pmf : F
  dataPoints : List DataPoint
  deriving DecidableEq

/-- `message CdfPoint`, joint_distribution.proto:45-48; absent fields read as 0. -/
structure CdfPoint where
  cdf : F
  value : Int
  deriving DecidableEq

/-- `message DistributionConfig`, joint_distribution.proto:55-61. -/
structure Config where
  name : Str := []
  pmfPoints : List PmfPoint := []
  cdfPoints : List CdfPoint := []
  fieldNames : List Str := []
  deriving DecidableEq

/-- The loop over the points in `ValidatePmfConfig`, distbench_utils.cc:475-486. -/
def validatePmfLoop (rnd : Rat → Rat) (hasNames : Bool) (dimensions : Nat) :
    List PmfPoint → F → Outcome F
  | [], cdf => .ok cdf
  | p :: rest, cdf =>
    if p.dataPoints.length ≠ dimensions then
      if hasNames then
        .error "The number of data_points must match the number of field_names."
      else .error "The number of data_points must be the same in all PmfPoints."
    else validatePmfLoop rnd hasNames dimensions rest (F.add rnd cdf p.pmf)

/-- `ValidatePmfConfig`, distbench_utils.cc:469-493; called only with at least one point
(`pmf_points(0)` of an empty list is fatal). -/
def validatePmf (rnd : Rat → Rat) (c : Config) : Outcome Unit :=
  match c.pmfPoints with
  | [] => .crash
  | p0 :: _ =>
    let dimensions := if c.fieldNames.length = 0 then p0.dataPoints.length else c.fieldNames.length
    match validatePmfLoop rnd (c.fieldNames.length ≠ 0) dimensions c.pmfPoints (.num 0) with
    | .ok cdf =>
      if cdf.farFromOne then .error "The cumulative value of all PMFs should be 1.0 +-1e-6)."
      else .ok ()
    | .error m => .error m
    | .ub => .ub
    | .crash => .crash

/-- The loop of `ValidateCdfConfig`, distbench_utils.cc:504-521; `prev` is the previous point. -/
def validateCdfLoop (prev : CdfPoint) : List CdfPoint → Outcome CdfPoint
  | [] => .ok prev
  | p :: rest =>
    if p.value ≤ prev.value then .error "The value must be greater than previous_value"
    else if F.lt p.cdf prev.cdf then .error "The cdf value must be greater than previous cdf value"
    else validateCdfLoop p rest

/-- `ValidateCdfConfig`, distbench_utils.cc:495-532. -/
def validateCdf (c : Config) : Outcome Unit :=
  match c.cdfPoints with
  | [] => .crash
  | p0 :: rest =>
    if F.lt p0.cdf (.num 0) then .error "The cdf value must not be negative"
    else
      match validateCdfLoop p0 rest with
      | .ok last =>
        if F.eq last.cdf (.num 1) then .ok ()
        else .error "The maximum value of cdf must be exactly equal to 1."
      | .error m => .error m
      | .ub => .ub
      | .crash => .crash

/-- The repeated-name check, distbench_utils.cc:546-553. -/
def repeatsName (seen : List Str) : List Str → Bool
  | [] => false
  | n :: rest => if n ∈ seen then true else repeatsName (n :: seen) rest

/-- `ValidateDistributionConfig`, distbench_utils.cc:536-557. -/
def validate (rnd : Rat → Rat) (c : Config) : Outcome Unit :=
  if (c.cdfPoints ≠ []) = (c.pmfPoints ≠ []) then
    .error "Exactly one of CDF and PMF must be provided"
  else if repeatsName [] c.fieldNames then .error "field_name repeats"
  else if c.cdfPoints ≠ [] then validateCdf c
  else validatePmf rnd c

/-- Position found by the inner loop at distbench_utils.cc:588-592: the last matching index. -/
def lastIndexOf (names : List Str) (f : Str) : Option Nat :=
  (List.range names.length).foldl
    (fun found j => if names[j]? = some f then some j else found) none

/-- `canonical_from_proto`, distbench_utils.cc:584-599; `none` when a field is missing. -/
def canonicalFromProto (names : List Str) : List Str → Option (List Nat)
  | [] => some []
  | f :: rest =>
    match lastIndexOf names f with
    | none => none
    | some j => (canonicalFromProto names rest).map (j :: ·)

/-- The uniform branch, distbench_utils.cc:616-629, after the first point.  `none` is the integer
overflow of `value + 1`. -/
def uniformPoints (rnd : Rat → Rat) (dims : Nat) :
    List CdfPoint → F → Int → Option (List PmfPoint)
  | [], _, _ => some []
  | p :: rest, prevCdf, lowerBound =>
    if InI64 (p.value + 1) then
      (uniformPoints rnd dims rest p.cdf (p.value + 1)).map
        ({ pmf := F.sub rnd p.cdf prevCdf,
           dataPoints := List.replicate dims { lower := some lowerBound, upper := some p.value } } :: ·)
    else none

/-- The exact-value branch, distbench_utils.cc:630-642. -/
def exactPoints (rnd : Rat → Rat) (dims : Nat) : List CdfPoint → F → List PmfPoint
  | [], _ => []
  | p :: rest, prevCdf =>
    { pmf := F.sub rnd p.cdf prevCdf,
      dataPoints := List.replicate dims { exact := some p.value } } :: exactPoints rnd dims rest p.cdf

/-- Reordering of one PMF point, distbench_utils.cc:602-612; `none` when an index is out of range
(fatal in protobuf). -/
def reorderPoint (idx : List Nat) (p : PmfPoint) : Option PmfPoint :=
  (idx.mapM (fun j => p.dataPoints[j]?)).map fun d => { pmf := p.pmf, dataPoints := d }

/-- `GetCanonicalDistributionConfig`, distbench_utils.cc:576-645. -/
def canonical (rnd : Rat → Rat) (c : Config) (fields : List Str) : Outcome Config :=
  match validate rnd c with
  | .error m => .error m
  | .ub => .ub
  | .crash => .crash
  | .ok () =>
    match canonicalFromProto c.fieldNames fields with
    | none => .error "Field missing from config"
    | some idx =>
      match c.pmfPoints.mapM (reorderPoint idx) with
      | none => .crash
      | some pmf =>
        match c.cdfPoints with
        | [] => .ok { name := c.name, pmfPoints := pmf, fieldNames := fields }
        | p0 :: rest =>
          if F.eq p0.cdf (.num 0) then
            match uniformPoints rnd fields.length rest (.num 0) p0.value with
            | none => .ub
            | some ps => .ok { name := c.name, pmfPoints := pmf ++ ps, fieldNames := fields }
          else
            .ok { name := c.name, fieldNames := fields,
                  pmfPoints := pmf ++ exactPoints rnd fields.length (p0 :: rest) (.num 0) }

/-! ### sampling -/

/-- Conversion `int64_t → int` (C++20: modulo 2^32).
Code: joint_distribution_sample_generator.cc:35-110. -/
def toInt32 (n : Int) : Int := (n + 2 ^ 31) % 2 ^ 32 - 2 ^ 31

/-- One entry of `exact_value_`/`range_`/`is_exact_value_`,
joint_distribution_sample_generator.cc:83-93. -/
inductive Cell where
  | exact (v : Int)
  | range (lo hi : Int)
  deriving DecidableEq

/-- joint_distribution_sample_generator.cc:83-93: an absent bound reads as 0; the bounds of
`std::uniform_int_distribution<>` are `int`s. -/
def cellOf (d : DataPoint) : Cell :=
  match d.exact with
  | some v => .exact v
  | none => .range (toInt32 (d.lower.getD 0)) (toInt32 (d.upper.getD 0))

/-- The sample generator: per dimension, one cell per point; and the weights.
Code: joint_distribution_sample_generator.cc:35-110; joint_distribution_sample_generator.h. -/
structure Gen where
  cells : List (List Cell)
  weights : List F
  deriving DecidableEq

/-- `InitializeWithPmf`, joint_distribution_sample_generator.cc:73-101.  Only reached after
validation, so all points have the same number of data points. -/
def initWithPmf (points : List PmfPoint) : Gen :=
  let dims := match points with | [] => 0 | p :: _ => p.dataPoints.length
  { cells := (List.range dims).map fun i => points.filterMap fun p => (p.dataPoints[i]?).map cellOf,
    weights := points.map (·.pmf) }

/-- The conversion loop of `InitializeWithCdf`, joint_distribution_sample_generator.cc:51-68;
`none` is the overflow of `value + 1`. -/
def cdfToPmfLoop (rnd : Rat → Rat) (uniform : Bool) :
    List CdfPoint → F → Int → Option (List PmfPoint)
  | [], _, _ => some []
  | p :: rest, prevCdf, nextLower =>
    if InI64 (p.value + 1) then
      (cdfToPmfLoop rnd uniform rest p.cdf (p.value + 1)).map
        ({ pmf := F.sub rnd p.cdf prevCdf,
           dataPoints := [if uniform then { lower := some nextLower, upper := some p.value }
                          else { exact := some p.value }] } :: ·)
    else none

/-- `InitializeWithCdf`, joint_distribution_sample_generator.cc:35-71. -/
def initWithCdf (rnd : Rat → Rat) (points : List CdfPoint) : Outcome Gen :=
  match points with
  | [] => .crash
  | p0 :: rest =>
    let uniform := F.eq p0.cdf (.num 0)
    let first : PmfPoint :=
      { pmf := p0.cdf, dataPoints := [if uniform then {} else { exact := some p0.value }] }
    match cdfToPmfLoop rnd uniform rest p0.cdf p0.value with
    | none => .ub
    | some ps => .ok (initWithPmf (first :: ps))

/-- `DistributionSampleGenerator::Initialize`, joint_distribution_sample_generator.cc:103-111. -/
def initGen (rnd : Rat → Rat) (c : Config) : Outcome Gen :=
  match validate rnd c with
  | .error m => .error m
  | .ub => .ub
  | .crash => .crash
  | .ok () =>
    if c.cdfPoints ≠ [] then initWithCdf rnd c.cdfPoints
    else if c.pmfPoints ≠ [] then .ok (initWithPmf c.pmfPoints)
    else .error "Add CDF or PMF"

/-- What `std::discrete_distribution` requires of its weights: no NaN, none negative, not all 0.
Code: joint_distribution_sample_generator.cc:102-110. -/
def weightsValid (ws : List F) : Prop :=
  (∀ w ∈ ws, ∃ q : Rat, w = .num q ∧ 0 ≤ q) ∧ ∃ w ∈ ws, ∃ q : Rat, w = .num q ∧ 0 < q

/-- Values one cell may produce (contract of `std::uniform_int_distribution`: bounds must be
ordered, otherwise undefined behaviour).  Code: joint_distribution_sample_generator.cc:112-139. -/
def cellDraw (c : Cell) (o : Outcome Int) : Prop :=
  match c with
  | .exact v => o = .ok v
  | .range lo hi => if lo ≤ hi then ∃ v, lo ≤ v ∧ v ≤ hi ∧ o = .ok v else o = .ub

/-- The loop over the dimensions of `GetRandomSample`,
joint_distribution_sample_generator.cc:117-123, for the drawn point `index`. -/
inductive DrawDims (index : Nat) : List (List Cell) → Outcome (List Int) → Prop where
  | nil : DrawDims index [] (.ok [])
  | oob {row rows} : row[index]? = none → DrawDims index (row :: rows) .ub
  | bad {row rows c} : row[index]? = some c → cellDraw c .ub → DrawDims index (row :: rows) .ub
  | step {row rows c v s} : row[index]? = some c → cellDraw c (.ok v) →
      DrawDims index rows (.ok s) → DrawDims index (row :: rows) (.ok (v :: s))
  | later {row rows c v} : row[index]? = some c → cellDraw c (.ok v) →
      DrawDims index rows .ub → DrawDims index (row :: rows) .ub

/-- `GetRandomSample`, joint_distribution_sample_generator.cc:112-125: every possible outcome.
A drawn index has positive weight (contract of `std::discrete_distribution`). -/
def getRandomSample (g : Gen) (o : Outcome (List Int)) : Prop :=
  (¬ weightsValid g.weights ∧ o = .ub) ∨
  (weightsValid g.weights ∧ ∃ index q, g.weights[index]? = some (.num q) ∧ 0 < q ∧
    DrawDims index g.cells o)

/-- `GetScalarRandomSample`, joint_distribution_sample_generator.cc:127-137. -/
def getScalarRandomSample (g : Gen) (o : Outcome Int) : Prop :=
  if g.cells.length ≠ 1 then o = .crash
  else ∃ s, getRandomSample g s ∧
    match s with
    | .ok l => o = .ok (l.headD 0)
    | .error m => o = .error m
    | .ub => o = .ub
    | .crash => o = .crash

end Distbench.Dist
