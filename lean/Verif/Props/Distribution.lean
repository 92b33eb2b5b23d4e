import Verif.Lemmas.Distribution

/-! Property theorems C11–C14: distribution validation, CDF conversion, field reordering and
sampling. -/

namespace Distbench
open Dist Spec

/-! ### C11: validation -/

/-- A config given as a CDF (finite probabilities) is accepted exactly when it has no PMF as well,
no repeated field name, and is a valid cumulative distribution. -/
theorem C11_cdf_accepted_iff (rnd : Rat → Rat) (c : Config) (pts : List (Rat × Int))
    (hc : c.cdfPoints = pts.map cdfPoint) (hne : pts ≠ []) :
    validate rnd c = .ok () ↔ c.pmfPoints = [] ∧ c.fieldNames.Nodup ∧ ValidCdf pts := by
  have hcne : c.cdfPoints ≠ [] := by rw [hc]; simpa using hne
  unfold validate
  by_cases hp : c.pmfPoints = []
  · rw [if_neg (by simp [hp, hcne])]
    by_cases hr : c.fieldNames.Nodup
    · rw [if_neg (by rw [(repeatsName_nodup _).2 hr]; simp), if_pos hcne, validateCdf_iff c pts hc hne]
      simp [hp, hr]
    · rw [if_pos]
      · simp [hr]
      · cases h : repeatsName [] c.fieldNames with
        | true => rfl
        | false => exact absurd ((repeatsName_nodup _).1 h) hr
  · rw [if_pos (by simp [hp, hcne])]
    simp [hp]

/-- A config given as a PMF (finite probabilities) is accepted exactly when it has no CDF as well,
no repeated field name, all points have the same number of data points (as many as there are field
names, if any are given), and the probabilities sum (in floating point) to 1 within 1e-6. -/
theorem C11_pmf_accepted_iff (rnd : Rat → Rat) (c : Config) (qs : List Rat)
    (hq : c.pmfPoints.map (·.pmf) = qs.map F.num) (hne : c.pmfPoints ≠ []) :
    validate rnd c = .ok () ↔ c.cdfPoints = [] ∧ c.fieldNames.Nodup ∧
      (∃ d, (c.fieldNames ≠ [] → d = c.fieldNames.length) ∧
        ∀ p ∈ c.pmfPoints, p.dataPoints.length = d) ∧
      -(1 / 1000000) ≤ roundedSum rnd qs - 1 ∧ roundedSum rnd qs - 1 ≤ 1 / 1000000 := by
  have hcl : ∀ x : Rat, (¬ (x - 1 > 1 / 1000000) ∧ ¬ (1 - x > 1 / 1000000)) ↔
      (-(1 / 1000000) ≤ x - 1 ∧ x - 1 ≤ 1 / 1000000) := by
    intro x; constructor <;> intro h <;> constructor <;> grind
  unfold validate
  by_cases hp : c.cdfPoints = []
  · rw [if_neg (by simp [hp, hne])]
    by_cases hr : c.fieldNames.Nodup
    · rw [if_neg (by rw [(repeatsName_nodup _).2 hr]; simp), if_neg (by simp [hp]),
        validatePmf_iff rnd c qs hq hne, hcl]
      simp [hp, hr]
    · rw [if_pos]
      · simp [hr]
      · cases h : repeatsName [] c.fieldNames with
        | true => rfl
        | false => exact absurd ((repeatsName_nodup _).1 h) hr
  · rw [if_pos (by simp [hp, hne])]
    simp [hp]

/-- A config with neither or both is rejected, for any contents at all. -/
theorem C11_exactly_one (rnd : Rat → Rat) (c : Config) (h : validate rnd c = .ok ()) :
    (c.pmfPoints = [] ∧ c.cdfPoints ≠ []) ∨ (c.pmfPoints ≠ [] ∧ c.cdfPoints = []) := by
  unfold validate at h
  by_cases hp : c.pmfPoints = [] <;> by_cases hc : c.cdfPoints = []
  · rw [if_pos (by simp [hp, hc])] at h; cases h
  · exact Or.inl ⟨hp, hc⟩
  · exact Or.inr ⟨hp, hc⟩
  · rw [if_pos (by simp [hp, hc])] at h; cases h

/-- Validation always returns a verdict: it never crashes and never runs into undefined behaviour. -/
theorem C11_total (rnd : Rat → Rat) (c : Config) :
    validate rnd c = .ok () ∨ ∃ m, validate rnd c = .error m := by
  unfold validate
  split
  · exact Or.inr ⟨_, rfl⟩
  · rename_i h1
    split
    · exact Or.inr ⟨_, rfl⟩
    · split
      · rename_i hc
        unfold validateCdf
        cases hp : c.cdfPoints with
        | nil => exact absurd hp hc
        | cons p ps =>
          simp only
          split
          · exact Or.inr ⟨_, rfl⟩
          · rcases validateCdfLoop_err p ps with ⟨l, hl⟩ | ⟨m, hm⟩
            · rw [hl]; simp only
              split
              · exact Or.inl rfl
              · exact Or.inr ⟨_, rfl⟩
            · rw [hm]; exact Or.inr ⟨_, rfl⟩
      · rename_i hc
        unfold validatePmf
        cases hp : c.pmfPoints with
        | nil => exact absurd (by simp at hc; simp [hc, hp]) h1
        | cons p ps =>
          simp only
          rcases validatePmfLoop_err rnd (c.fieldNames.length ≠ 0)
            (if c.fieldNames.length = 0 then p.dataPoints.length else c.fieldNames.length)
            (p :: ps) (.num 0) with ⟨l, hl⟩ | ⟨m, hm⟩
          · rw [hl]; simp only
            split
            · exact Or.inr ⟨_, rfl⟩
            · exact Or.inl rfl
          · rw [hm]; exact Or.inr ⟨_, rfl⟩

/-! ### C59: only real probabilities -/

/-- A CDF with finite numbers that is accepted has only probabilities between 0 and 1.  Missing from
the full property: PMFs (`C59_negative_pmf_accepted`) and NaN (`C59_nan_accepted`). -/
theorem C59_cdf_nonneg_partial (rnd : Rat → Rat) (c : Config) (pts : List (Rat × Int))
    (hc : c.cdfPoints = pts.map cdfPoint) (hne : pts ≠ []) (h : validate rnd c = .ok ()) :
    ∀ p ∈ pts, 0 ≤ p.1 ∧ p.1 ≤ 1 := by
  obtain ⟨_, _, _, hpw, hh, hl⟩ := (C11_cdf_accepted_iff rnd c pts hc hne).1 h
  intro p hp
  obtain ⟨k, hk, rfl⟩ := List.mem_iff_getElem.1 hp
  have h0 : pts.head? = some pts[0] := by
    rw [List.head?_eq_getElem?, List.getElem?_eq_getElem (by omega)]
  have h1 : pts.getLast? = some pts[pts.length - 1] := by
    rw [List.getLast?_eq_getElem?, List.getElem?_eq_getElem (by omega)]
  have ha := hh _ h0
  have hb := hl _ h1
  constructor
  · by_cases hz : k = 0
    · subst hz; exact ha
    · have := (List.pairwise_iff_getElem.1 hpw 0 k (by omega) hk (by omega)).2
      grind
  · by_cases hz : k = pts.length - 1
    · subst hz; grind
    · have := (List.pairwise_iff_getElem.1 hpw k (pts.length - 1) hk (by omega) (by omega)).2
      grind

/-- The code does not reject negative probabilities. -/
theorem C59_negative_pmf_accepted :
    ∃ c : Config, (∃ p ∈ c.pmfPoints, p.pmf = .num (-1)) ∧ validate id c = .ok () :=
  ⟨{ pmfPoints := [⟨.num (-1), [{ exact := some 5 }]⟩, ⟨.num 2, [{ exact := some 6 }]⟩] },
    by simp, by decide +kernel⟩

/-- The code does not reject not-a-number probabilities, neither in a PMF nor inside a CDF. -/
theorem C59_nan_accepted :
    (∃ c : Config, (∃ p ∈ c.pmfPoints, p.pmf = .nan) ∧ validate id c = .ok ()) ∧
    (∃ c : Config, (∃ p ∈ c.cdfPoints, p.cdf = .nan) ∧ validate id c = .ok ()) :=
  ⟨⟨{ pmfPoints := [⟨.nan, [{ exact := some 5 }]⟩] }, by simp, by decide +kernel⟩,
   ⟨{ cdfPoints := [⟨.num 0, 1⟩, ⟨.nan, 2⟩, ⟨.num 1, 3⟩] }, by simp, by decide +kernel⟩⟩

example : validate id { cdfPoints := [(0, 10), (1/2, 20), (1, 30)].map cdfPoint,
                        fieldNames := ["size".toList] } = .ok () := by decide +kernel
example : validate id { pmfPoints := [⟨.num (1/4), [{ exact := some 5 }]⟩,
    ⟨.num (3/4), [{ lower := some 1, upper := some 9 }]⟩] } = .ok () := by decide +kernel

/-! ### C12: CDF conversion -/

/-- What the conversion of a CDF must produce, relative to the points it came from. -/
structure FaithfulConversion (pts : List (Rat × Int)) (first : Nat) (out : List PmfPoint)
    (ms : List Rat) : Prop where
  /-- one PMF point per CDF point (from `first` on) -/
  len : out.length = pts.length - first
  /-- its probabilities are the numbers `ms` -/
  pmfs : out.map (·.pmf) = ms.map F.num
  /-- none of them is negative -/
  nonneg : ∀ m ∈ ms, 0 ≤ m
  /-- accumulating them gives back the CDF -/
  prefixes : ∀ k (hk : k + first < pts.length), (ms.take (k + 1)).sum = pts[k + first].1
  /-- and they sum to one -/
  total : ms.sum = 1

theorem take_all_sum (ms : List Rat) (n : Nat) (h : ms.length ≤ n) : (ms.take n).sum = ms.sum := by
  rw [List.take_of_length_le h]

/-- Converting a valid CDF whose first probability is not 0 yields a PMF with the same cumulative
probabilities in which the k-th point is exactly the k-th value. -/
theorem C12_exact (c : Config) (pts : List (Rat × Int)) (fields : List Str)
    (hc : c.cdfPoints = pts.map cdfPoint) (hv : ValidCdf pts) (hp : c.pmfPoints = [])
    (hn : c.fieldNames.Nodup) (hf : ∀ f ∈ fields, f ∈ c.fieldNames)
    (h0 : ∀ p ∈ pts.head?, p.1 ≠ 0) :
    ∃ out ms, canonical id c fields = .ok out ∧ out.cdfPoints = [] ∧ out.fieldNames = fields ∧
      FaithfulConversion pts 0 out.pmfPoints ms ∧
      ∀ k (hk : k < pts.length) (hk' : k < out.pmfPoints.length),
        out.pmfPoints[k].dataPoints = List.replicate fields.length { exact := some pts[k].2 } := by
  have hval := (C11_cdf_accepted_iff id c pts hc hv.1).2 ⟨hp, hn, hv⟩
  obtain ⟨hne, hpw, hhead, hlast⟩ := hv
  unfold canonical
  rw [hval]
  cases hidx : canonicalFromProto c.fieldNames fields with
  | none => obtain ⟨f, h1, h2⟩ := canonicalFromProto_none.1 hidx; exact absurd (hf f h1) h2
  | some idx =>
    simp only [hp, List.mapM_nil]
    cases pts with
    | nil => exact absurd rfl hne
    | cons p0 rest =>
      obtain ⟨e1, e2, ms, e3, e4, e5⟩ := exactPoints_spec fields.length (p0 :: rest) 0
      rw [hc, List.map_cons]
      have hz : p0.1 ≠ 0 := h0 p0 (by simp)
      simp only [pure, F.eq, cdfPoint, decide_eq_true_eq, if_neg hz, List.nil_append]
      refine ⟨{ name := c.name, fieldNames := fields,
                pmfPoints := exactPoints id fields.length ((p0 :: rest).map cdfPoint) (.num 0) },
        ms, rfl, rfl, rfl, ⟨by simpa using e1, e3, ?_, ?_, ?_⟩, ?_⟩
      · refine masses_nonneg ms ((p0 :: rest).map (·.1)) 0 (by simpa using e4) ?_ ?_
        · intro k hk
          rw [e5 k (by simpa using hk), List.getElem_map]
        · rw [List.pairwise_cons]
          have hpw1 : ((p0 :: rest).map (·.1)).Pairwise (· ≤ ·) := by
            rw [List.pairwise_map]
            exact hpw.imp (fun h => h.2)
          refine ⟨?_, hpw1⟩
          intro b hb
          have h00 := hhead p0 (by simp)
          rw [List.map_cons] at hb hpw1
          rcases List.mem_cons.1 hb with rfl | hb
          · exact h00
          · have := (List.pairwise_cons.1 hpw1).1 b hb
            grind
      · intro k hk
        have := e5 k hk
        simp only [Nat.add_zero]
        rw [this]; grind
      · have h1 := e5 rest.length (by simp)
        rw [take_all_sum _ _ (by simp at e4; omega)] at h1
        rw [h1]
        have h2 := hlast (p0 :: rest)[rest.length] (by
          rw [List.getLast?_eq_getElem?]; simp)
        rw [h2]; grind
      · intro k hk hk'
        have := e2 k hk
        rw [List.getElem?_eq_getElem hk'] at this
        simpa using this

/-- Lower end of the k-th interval of a uniform CDF: the first value, then just above the previous
value. -/
def intervalLow (pts : List (Rat × Int)) (k : Nat) : Int :=
  match k, pts[k]? with
  | 0, some p => p.2
  | _ + 1, some p => p.2 + 1
  | _, none => 0

/-- Converting a valid CDF whose first probability is 0 yields a PMF with the same cumulative
probabilities in which the k-th point is the interval from just above the k-th value (from the k-th
value itself for the first) to the (k+1)-st value. -/
theorem C12_uniform (c : Config) (pts : List (Rat × Int)) (fields : List Str)
    (hc : c.cdfPoints = pts.map cdfPoint) (hv : ValidCdf pts) (hp : c.pmfPoints = [])
    (hn : c.fieldNames.Nodup) (hf : ∀ f ∈ fields, f ∈ c.fieldNames)
    (h0 : ∀ p ∈ pts.head?, p.1 = 0) (hmax : ∀ p ∈ pts, InI64 p.2 ∧ p.2 < 2 ^ 63 - 1) :
    ∃ out ms, canonical id c fields = .ok out ∧ out.cdfPoints = [] ∧ out.fieldNames = fields ∧
      FaithfulConversion pts 1 out.pmfPoints ms ∧
      ∀ k (hk : k + 1 < pts.length) (hk' : k < out.pmfPoints.length),
        out.pmfPoints[k].dataPoints = List.replicate fields.length
          { lower := some (intervalLow pts k), upper := some pts[k + 1].2 } := by
  have hval := (C11_cdf_accepted_iff id c pts hc hv.1).2 ⟨hp, hn, hv⟩
  obtain ⟨hne, hpw, hhead, hlast⟩ := hv
  unfold canonical
  rw [hval]
  cases hidx : canonicalFromProto c.fieldNames fields with
  | none => obtain ⟨f, h1, h2⟩ := canonicalFromProto_none.1 hidx; exact absurd (hf f h1) h2
  | some idx =>
    simp only [hp, List.mapM_nil]
    cases pts with
    | nil => exact absurd rfl hne
    | cons p0 rest =>
      have hz : p0.1 = 0 := h0 p0 (by simp)
      have hrest : rest ≠ [] := by
        rintro rfl
        have := hlast p0 (by simp)
        rw [hz] at this
        exact absurd this (by decide +kernel)
      obtain ⟨ps, hps⟩ := (uniformPoints_some id fields.length (rest.map cdfPoint) (.num 0) p0.2).2 (by
        intro p hp
        obtain ⟨q, hq, rfl⟩ := List.mem_map.1 hp
        have := hmax q (by simp [hq])
        unfold InI64 at *
        simp only [cdfPoint]
        omega)
      obtain ⟨e1, e2, ms, e3, e4, e5⟩ := uniformPoints_spec fields.length rest 0 p0.2 ps hps
      rw [hc, List.map_cons]
      simp only [pure, F.eq, cdfPoint, decide_eq_true_eq, if_pos hz, List.nil_append]
      rw [hps]
      have hpw1 : ((p0 :: rest).map (·.1)).Pairwise (· ≤ ·) := by
        rw [List.pairwise_map]
        exact hpw.imp (fun h => h.2)
      refine ⟨_, ms, rfl, rfl, rfl, ⟨by simpa using e1, e3, ?_, ?_, ?_⟩, ?_⟩
      · refine masses_nonneg ms (rest.map (·.1)) 0 (by simpa using e4) ?_ ?_
        · intro k hk
          rw [e5 k (by simpa using hk), List.getElem_map]
        · rw [List.map_cons, hz] at hpw1; exact hpw1
      · intro k hk
        have := e5 k (by simpa using hk)
        simp only [List.getElem_cons_succ]
        rw [this]; grind
      · have hl : 0 < rest.length := List.length_pos_iff.2 hrest
        have h1 := e5 (rest.length - 1) (by omega)
        rw [take_all_sum _ _ (by omega)] at h1
        rw [h1]
        have h2 := hlast rest[rest.length - 1] (by
          rw [List.getLast?_eq_getElem?]
          rw [show (p0 :: rest).length - 1 = (rest.length - 1) + 1 by simp; omega]
          rw [List.getElem?_cons_succ, List.getElem?_eq_getElem (by omega)]
          exact rfl)
        rw [h2]; grind
      · intro k hk hk'
        have := e2 k (by simpa using hk)
        rw [List.getElem?_eq_getElem hk'] at this
        simp only [Option.map_some, Option.some.injEq] at this
        rw [this]
        have hlow : lowerOf p0.2 rest k = intervalLow (p0 :: rest) k := by
          cases k with
          | zero => simp [lowerOf, intervalLow]
          | succ k =>
            have hk2 : k < rest.length := by simp at hk; omega
            simp [lowerOf, intervalLow, List.getElem?_eq_getElem hk2]
        rw [hlow]
        simp

/-- The intervals of a uniform CDF do not overlap and together contain exactly the integers from the
first value to the last. -/
theorem C12_intervals_cover (pts : List (Rat × Int)) (hv : ValidCdf pts) (h2 : 2 ≤ pts.length)
    (x : Int) :
    (pts[0].2 ≤ x ∧ x ≤ (pts[pts.length - 1]).2 ↔
      ∃ k, ∃ hk : k + 1 < pts.length, intervalLow pts k ≤ x ∧ x ≤ pts[k + 1].2) ∧
    ∀ j k, ∀ hj : j + 1 < pts.length, ∀ hk : k + 1 < pts.length,
      intervalLow pts j ≤ x → x ≤ pts[j + 1].2 → intervalLow pts k ≤ x → x ≤ pts[k + 1].2 → j = k := by
  have hmono : ∀ i j (hi : i < pts.length) (hj : j < pts.length), i < j → pts[i].2 < pts[j].2 := by
    intro i j hi hj hij
    exact ((List.pairwise_iff_getElem.1 hv.2.1) i j hi hj hij).1
  have hlow : ∀ k (hk : k + 1 < pts.length), intervalLow pts k
      = if k = 0 then pts[0].2 else pts[k].2 + 1 := by
    intro k hk
    cases k with
    | zero => simp [intervalLow, List.getElem?_eq_getElem (show 0 < pts.length by omega)]
    | succ k => simp [intervalLow, List.getElem?_eq_getElem (show k + 1 < pts.length by omega)]
  refine ⟨⟨?_, ?_⟩, ?_⟩
  · rintro ⟨ha, hb⟩
    have key : ∀ n (hn : n + 1 < pts.length), x ≤ pts[n + 1].2 →
        ∃ k, ∃ hk : k + 1 < pts.length, intervalLow pts k ≤ x ∧ x ≤ pts[k + 1].2 := by
      intro n
      induction n with
      | zero => intro hn h; exact ⟨0, hn, by rw [hlow 0 hn]; simpa using ha, h⟩
      | succ n ih =>
        intro hn h
        by_cases hx : x ≤ pts[n + 1].2
        · exact ih (by omega) hx
        · exact ⟨n + 1, hn, by rw [hlow (n + 1) hn]; simp; omega, h⟩
    have hb' : x ≤ pts[(pts.length - 2) + 1].2 := by
      have : pts.length - 2 + 1 = pts.length - 1 := by omega
      simp only [this]; exact hb
    exact key (pts.length - 2) (by omega) hb'
  · rintro ⟨k, hk, h1, h2'⟩
    rw [hlow k hk] at h1
    constructor
    · by_cases h0 : k = 0
      · rw [if_pos h0] at h1; exact h1
      · rw [if_neg h0] at h1
        have := hmono 0 k (by omega) (by omega) (by omega)
        omega
    · by_cases hl : k + 1 = pts.length - 1
      · simp only [← hl]; exact h2'
      · have := hmono (k + 1) (pts.length - 1) hk (by omega) (by omega)
        omega
  · have main : ∀ j k, ∀ hj : j + 1 < pts.length, ∀ hk : k + 1 < pts.length,
        x ≤ pts[j + 1].2 → intervalLow pts k ≤ x → ¬ j < k := by
      intro j k hj hk hb hc hjk
      rw [hlow k hk, if_neg (by omega)] at hc
      by_cases h : j + 1 = k
      · subst h; omega
      · have := hmono (j + 1) k hj (by omega) (by omega)
        omega
    intro j k hj hk ha hb hc hd
    have h1 := main j k hj hk hb hc
    have h2 := main k j hk hj hd ha
    omega

/-- With the largest 64-bit integer as its last value, a valid uniform CDF makes the conversion
overflow (undefined behaviour). -/
theorem C60_max_value_overflows : ∃ c : Config,
    ValidCdf [(0, 1), (1, 2 ^ 63 - 1)] ∧ c.cdfPoints = [(0, 1), (1, 2 ^ 63 - 1)].map cdfPoint ∧
    c.pmfPoints = [] ∧ canonical id c [] = .ub := by
  refine ⟨{ cdfPoints := [(0, 1), (1, 2 ^ 63 - 1)].map cdfPoint }, ⟨by simp, ?_, ?_, ?_⟩, rfl, rfl, ?_⟩
  · simp; decide +kernel
  · simp
  · simp
  · decide +kernel

example : canonical id { cdfPoints := [(0, 10), (1/4, 20), (1, 30)].map cdfPoint,
                         fieldNames := ["size".toList] } ["size".toList]
    = .ok { fieldNames := ["size".toList],
            pmfPoints := [⟨.num (1/4), [{ lower := some 10, upper := some 20 }]⟩,
                          ⟨.num (3/4), [{ lower := some 21, upper := some 30 }]⟩] } := by
  decide +kernel

/-! ### C13: field reordering -/

/-- A valid PMF whose points have a data point per field name is accepted exactly when every
requested field is present; the result has the requested fields in the requested order, the same
probabilities, and each point's value for a field is the value that field had before. -/
theorem C13_reorder (rnd : Rat → Rat) (c : Config) (fields : List Str)
    (hp : c.pmfPoints ≠ []) (hv : validate rnd c = .ok ())
    (hd : ∀ p ∈ c.pmfPoints, p.dataPoints.length = c.fieldNames.length)
    (hf : ∀ f ∈ fields, f ∈ c.fieldNames) :
    ∃ out, canonical rnd c fields = .ok out ∧ out.name = c.name ∧ out.fieldNames = fields ∧
      out.cdfPoints = [] ∧
      out.pmfPoints.map (·.pmf) = c.pmfPoints.map (·.pmf) ∧
      ∀ k (hk : k < c.pmfPoints.length) (hk' : k < out.pmfPoints.length),
        out.pmfPoints[k].dataPoints.length = fields.length ∧
        ∀ (i j : Nat) (f : Str), fields[i]? = some f → c.fieldNames[j]? = some f →
          out.pmfPoints[k].dataPoints[i]? = c.pmfPoints[k].dataPoints[j]? := by
  have hcdf : c.cdfPoints = [] := by
    rcases C11_exactly_one rnd c hv with h | h
    · exact absurd h.1 hp
    · exact h.2
  have hnodup : c.fieldNames.Nodup := by
    unfold validate at hv
    rw [if_neg (by simp [hcdf, hp])] at hv
    rw [← repeatsName_nodup]
    cases h : repeatsName [] c.fieldNames with
    | false => rfl
    | true => rw [h] at hv; cases hv
  unfold canonical
  rw [hv]
  cases hidx : canonicalFromProto c.fieldNames fields with
  | none => obtain ⟨f, h1, h2⟩ := canonicalFromProto_none.1 hidx; exact absurd (hf f h1) h2
  | some idx =>
    obtain ⟨hl, hi⟩ := canonicalFromProto_some hidx
    have hre : ∀ p ∈ c.pmfPoints, ∃ q, reorderPoint idx p = some q := by
      intro p hpm
      have : ∃ d, idx.mapM (fun j => p.dataPoints[j]?) = some d := by
        apply mapM_isSome
        intro j hj
        obtain ⟨i, hil, rfl⟩ := List.mem_iff_getElem.1 hj
        have := hi i (by omega) hil
        obtain ⟨h', _⟩ := List.getElem?_eq_some_iff.1 this
        exact ⟨_, List.getElem?_eq_getElem (by rw [hd p hpm]; exact h')⟩
      obtain ⟨d, hd'⟩ := this
      exact ⟨_, by rw [reorderPoint, hd']; rfl⟩
    obtain ⟨pmf, hpmf⟩ := mapM_isSome hre
    simp only [hpmf, hcdf]
    obtain ⟨hpl, hpi⟩ := mapM_spec hpmf
    refine ⟨_, rfl, rfl, rfl, rfl, ?_, ?_⟩
    · apply List.ext_getElem
      · simp [hpl]
      · intro i h1 h2
        simp only [List.getElem_map]
        have := hpi i (by simpa using h2) (by simpa using h1)
        rw [reorderPoint, Option.map_eq_some_iff] at this
        obtain ⟨d, _, h⟩ := this
        rw [← h]
    · intro k hk hk'
      have := hpi k hk hk'
      rw [reorderPoint, Option.map_eq_some_iff] at this
      obtain ⟨d, hdd, h⟩ := this
      obtain ⟨hdl, hdi⟩ := mapM_spec hdd
      simp only [← h]
      refine ⟨by omega, ?_⟩
      intro i j f hif hjf
      obtain ⟨hil, hie⟩ := List.getElem?_eq_some_iff.1 hif
      have h1 := hi i hil (by omega)
      have h2 := hdi i (by omega) (by omega)
      rw [hie] at h1
      have hj : idx[i] = j := by
        obtain ⟨a, ha⟩ := List.getElem?_eq_some_iff.1 h1
        obtain ⟨b, hb⟩ := List.getElem?_eq_some_iff.1 hjf
        exact (List.getElem_inj hnodup).1 (by rw [ha, hb])
      rw [List.getElem?_eq_getElem (by omega), ← h2, hj]

/-- If a requested field is missing the config is rejected with an error; and an invalid config is
rejected with the error of the validation. -/
theorem C13_missing_rejected (rnd : Rat → Rat) (c : Config) (fields : List Str)
    (h : validate rnd c ≠ .ok () ∨ ∃ f ∈ fields, f ∉ c.fieldNames) :
    ∃ m, canonical rnd c fields = .error m := by
  unfold canonical
  rcases C11_total rnd c with hv | ⟨m, hm⟩
  · rw [hv]
    rcases h with h | h
    · exact absurd hv h
    · rw [canonicalFromProto_none.2 h]; exact ⟨_, rfl⟩
  · rw [hm]; exact ⟨m, rfl⟩

/-- Canonicalizing a PMF twice with the same fields is the same as doing it once. -/
theorem C13_idempotent (rnd : Rat → Rat) (c out : Config) (fields : List Str) (qs : List Rat)
    (hp : c.pmfPoints ≠ []) (hq : c.pmfPoints.map (·.pmf) = qs.map F.num)
    (hd : ∀ p ∈ c.pmfPoints, p.dataPoints.length = c.fieldNames.length)
    (hnd : fields.Nodup) (h : canonical rnd c fields = .ok out) :
    canonical rnd out fields = .ok out := by
  have hv : validate rnd c = .ok () := by
    rcases C11_total rnd c with hv | ⟨m, hm⟩
    · exact hv
    · exfalso
      unfold canonical at h
      rw [hm] at h; cases h
  have hf : ∀ f ∈ fields, f ∈ c.fieldNames := by
    intro f hfm
    apply Classical.byContradiction
    intro hn
    obtain ⟨m, hm⟩ := C13_missing_rejected rnd c fields (Or.inr ⟨f, hfm, hn⟩)
    rw [h] at hm; cases hm
  obtain ⟨out', h', hname, hfn, hcdf, hpm, hk⟩ := C13_reorder rnd c fields hp hv hd hf
  rw [h] at h'
  cases h'
  have hlen : out.pmfPoints.length = c.pmfPoints.length := by
    have := congrArg List.length hpm
    simpa using this
  have hp' : out.pmfPoints ≠ [] := by
    intro e; rw [e] at hlen
    exact hp (List.eq_nil_of_length_eq_zero hlen.symm)
  have hd' : ∀ p ∈ out.pmfPoints, p.dataPoints.length = out.fieldNames.length := by
    intro p hp
    obtain ⟨k, hkl, rfl⟩ := List.mem_iff_getElem.1 hp
    rw [hfn]
    exact (hk k (by omega) hkl).1
  have hval := (C11_pmf_accepted_iff rnd c qs hq hp).1 hv
  have hv' : validate rnd out = .ok () := by
    refine (C11_pmf_accepted_iff rnd out qs (hpm.trans hq) hp').2
      ⟨hcdf, by rw [hfn]; exact hnd, ⟨_, fun _ => rfl, hd'⟩, hval.2.2.2⟩
  obtain ⟨out2, h2, hname2, hfn2, hcdf2, hpm2, hk2⟩ :=
    C13_reorder rnd out fields hp' hv' hd' (by intro f hf'; rw [hfn]; exact hf')
  rw [h2]
  congr 1
  have hpts : out2.pmfPoints = out.pmfPoints := by
    have hl2 : out2.pmfPoints.length = out.pmfPoints.length := by
      have := congrArg List.length hpm2
      simpa using this
    apply List.ext_getElem hl2
    intro k h1 h2'
    obtain ⟨a, b⟩ := hk2 k h2' h1
    have hpmf : out2.pmfPoints[k].pmf = out.pmfPoints[k].pmf := by
      have := congrArg (·[k]?) hpm2
      simpa [List.getElem?_eq_getElem h1, List.getElem?_eq_getElem h2'] using this
    have hdp : out2.pmfPoints[k].dataPoints = out.pmfPoints[k].dataPoints := by
      apply List.ext_getElem?
      intro i
      by_cases hi : i < fields.length
      · exact b i i fields[i] (List.getElem?_eq_getElem hi) (by rw [hfn]; exact List.getElem?_eq_getElem hi)
      · have := (hk k (by omega) h2').1
        rw [List.getElem?_eq_none (by omega), List.getElem?_eq_none (by omega)]
    generalize out2.pmfPoints[k] = x at *
    generalize out.pmfPoints[k] = y at *
    cases x; cases y
    simp_all
  cases out2; cases out
  simp_all

example : canonical id
    { name := "d".toList, fieldNames := ["b".toList, "x".toList, "a".toList],
      pmfPoints := [⟨.num 1, [{ exact := some 2 }, { exact := some 9 }, { exact := some 1 }]⟩] }
    ["a".toList, "b".toList]
    = .ok { name := "d".toList, fieldNames := ["a".toList, "b".toList],
            pmfPoints := [⟨.num 1, [{ exact := some 1 }, { exact := some 2 }]⟩] } := by decide +kernel

/-! ### C14: sample support -/

/-- Sampling from an accepted PMF with non-negative probabilities, whose intervals are in order and
fit in 32 bits, yields exactly the tuples admitted, coordinate by coordinate, by one point of
positive probability; it never fails.  Intervals outside 32 bits are the subject of C60. -/
theorem C14_pmf_support (rnd : Rat → Rat) (hr : rnd 0 = 0) (c : Config) (qs : List Rat)
    (hq : c.pmfPoints.map (·.pmf) = qs.map F.num) (hne : c.pmfPoints ≠ [])
    (hpos : ∀ q ∈ qs, 0 ≤ q) (hv : validate rnd c = .ok ())
    (hb : ∀ p ∈ c.pmfPoints, ∀ d ∈ p.dataPoints, Bounds32 d) :
    ∃ g, initGen rnd c = .ok g ∧ ∀ o, getRandomSample g o ↔
      ∃ p ∈ c.pmfPoints, (∃ q : Rat, p.pmf = .num q ∧ 0 < q) ∧
        ∃ s, o = .ok s ∧ s.length = p.dataPoints.length ∧
          ∀ i (hi : i < p.dataPoints.length) (hi' : i < s.length), Admits p.dataPoints[i] s[i] := by
  have hval := (C11_pmf_accepted_iff rnd c qs hq hne).1 hv
  obtain ⟨hcdf, hnd, ⟨d, _, hd⟩, hs1, _⟩ := hval
  refine ⟨initWithPmf c.pmfPoints, ?_, ?_⟩
  · unfold initGen
    rw [hv]
    simp [hcdf, hne]
  · intro o
    refine sample_iff c.pmfPoints d hne hd ?_ (fun p hp _ _ _ => hb p hp) o
    unfold weightsValid
    rw [hq]
    refine ⟨?_, ?_⟩
    · intro w hw
      obtain ⟨q, hqm, rfl⟩ := List.mem_map.1 hw
      exact ⟨q, rfl, hpos q hqm⟩
    · apply Classical.byContradiction
      intro hno
      have hz : ∀ q ∈ qs, q = 0 := by
        intro q hqm
        have h1 := hpos q hqm
        have h2 : ¬ 0 < q := fun h => hno ⟨.num q, List.mem_map.2 ⟨q, hqm, rfl⟩, q, rfl, h⟩
        grind
      rw [roundedSum_zero rnd hr qs hz] at hs1
      exact absurd hs1 (by decide +kernel)

/-- Some increment of a CDF that starts at 0 or below and ends at 1 is positive. -/
theorem increment_pos (prev : Rat) (cs : List Rat) (hp : prev ≤ 0)
    (hl : ((prev :: cs)[cs.length]?).getD 0 = 1) :
    ∃ k, ∃ hk : k < cs.length, ((prev :: cs)[k]?).getD 0 < cs[k] := by
  induction cs generalizing prev with
  | nil => simp at hl; grind
  | cons c cs ih =>
    by_cases h : prev < c
    · exact ⟨0, by simp, by simpa using h⟩
    · obtain ⟨k, hk, hlt⟩ := ih c (by grind) (by simpa using hl)
      exact ⟨k + 1, by simpa using hk, by simpa using hlt⟩

/-- Sampling directly from a valid CDF whose first probability is not 0 yields exactly the values at
which the CDF increases. -/
theorem C14_cdf_exact_support (c : Config) (pts : List (Rat × Int))
    (hc : c.cdfPoints = pts.map cdfPoint) (hv : ValidCdf pts) (hp : c.pmfPoints = [])
    (hn : c.fieldNames.Nodup) (h0 : ∀ p ∈ pts.head?, p.1 ≠ 0)
    (hmax : ∀ p ∈ pts, InI64 p.2 ∧ p.2 < 2 ^ 63 - 1) :
    ∃ g, initGen id c = .ok g ∧ ∀ o, getRandomSample g o ↔
      ∃ k, ∃ hk : k < pts.length, ((0 :: pts.map (·.1))[k]?).getD 0 < pts[k].1 ∧ o = .ok [pts[k].2] := by
  have hval := (C11_cdf_accepted_iff id c pts hc hv.1).2 ⟨hp, hn, hv⟩
  obtain ⟨hne, hpw, hhead, hlast⟩ := hv
  cases pts with
  | nil => exact absurd rfl hne
  | cons p0 rest =>
  have hz : p0.1 ≠ 0 := h0 p0 (by simp)
  have h00 : 0 ≤ p0.1 := hhead p0 (by simp)
  have hz0 : 0 < p0.1 := by grind
  obtain ⟨ps, h1, h2, h3⟩ := cdfToPmfLoop_spec false rest p0.1 p0.2 (by
    intro p hp'
    have := hmax p (by simp [hp'])
    unfold InI64 at *
    omega)
  let first : PmfPoint := { pmf := .num p0.1, dataPoints := [{ exact := some p0.2 }] }
  have hall : ∀ k (hk : k < (first :: ps).length) (hk' : k < (p0 :: rest).length),
      (first :: ps)[k].dataPoints = [{ exact := some (p0 :: rest)[k].2 }] ∧
      (first :: ps)[k].pmf
        = .num ((p0 :: rest)[k].1 - ((0 :: (p0 :: rest).map (·.1))[k]?).getD 0) := by
    intro k hk hk'
    cases k with
    | zero => exact ⟨rfl, by simp [first]; grind⟩
    | succ k =>
      have := h3 k (by simpa using hk') (by simpa using hk)
      simpa using this
  have hlen : (first :: ps).length = (p0 :: rest).length := by simp [h2]
  refine ⟨initWithPmf (first :: ps), ?_, ?_⟩
  · unfold initGen
    rw [hval]
    have hcne : c.cdfPoints ≠ [] := by rw [hc]; simp
    simp only [if_pos hcne]
    rw [hc, List.map_cons]
    unfold initWithCdf
    simp only [cdfPoint, F.eq, decide_eq_true_eq]
    have hdz : decide (p0.1 = 0) = false := by simpa using hz
    rw [hdz]
    have h1' : cdfToPmfLoop id false (List.map (fun p : Rat × Int => ({ cdf := .num p.1, value := p.2 } : CdfPoint)) rest)
        (.num p0.1) p0.2 = some ps := h1
    rw [show (List.map cdfPoint rest) = (List.map (fun p : Rat × Int => ({ cdf := .num p.1, value := p.2 } : CdfPoint)) rest) from rfl]
    rw [h1']
    simp [first, hz]
  · intro o
    have hmono : ∀ k (hk : k < (p0 :: rest).length),
        ((0 :: (p0 :: rest).map (·.1))[k]?).getD 0 ≤ (p0 :: rest)[k].1 := by
      intro k hk
      cases k with
      | zero => simpa using h00
      | succ k =>
        have := (List.pairwise_iff_getElem.1 hpw) k (k + 1) (by omega) hk (by omega)
        rw [List.getElem?_cons_succ, List.getElem?_eq_getElem (by simp at hk ⊢; omega)]
        rw [List.getElem_map]
        exact this.2
    rw [sample_iff (first :: ps) 1 (by simp)]
    · constructor
      · rintro ⟨p, hpm, ⟨q, hq, hq0⟩, s, rfl, hsl, hsa⟩
        obtain ⟨k, hk, rfl⟩ := List.mem_iff_getElem.1 hpm
        have hk' : k < (p0 :: rest).length := by omega
        obtain ⟨a, b⟩ := hall k hk hk'
        refine ⟨k, hk', ?_, ?_⟩
        · rw [b] at hq; cases hq; grind
        · rw [a] at hsl
          have hs0 : 0 < s.length := by simp at hsl; omega
          have := hsa 0 (by rw [a]; simp) hs0
          simp only [a, List.getElem_cons_zero, Admits] at this
          match s, hsl with
          | [x], _ => simp at this; rw [this]
      · rintro ⟨k, hk, hlt, rfl⟩
        have hk' : k < (first :: ps).length := by omega
        obtain ⟨a, b⟩ := hall k hk' hk
        refine ⟨(first :: ps)[k], List.getElem_mem hk', ⟨_, b, by grind⟩, _, rfl, by rw [a]; simp, ?_⟩
        intro i hi hi'
        have : i = 0 := by simp at hi'; omega
        subst this
        simp only [a, List.getElem_cons_zero, Admits]
    · intro p hpm
      obtain ⟨k, hk, rfl⟩ := List.mem_iff_getElem.1 hpm
      rw [(hall k hk (by omega)).1]; simp
    · refine ⟨?_, .num p0.1, by simp [first], p0.1, rfl, hz0⟩
      intro w hw
      obtain ⟨p, hpm, rfl⟩ := List.mem_map.1 hw
      obtain ⟨k, hk, rfl⟩ := List.mem_iff_getElem.1 hpm
      have := hmono k (by omega)
      exact ⟨_, (hall k hk (by omega)).2, by grind⟩
    · intro p hpm q _ _ d hd
      obtain ⟨k, hk, rfl⟩ := List.mem_iff_getElem.1 hpm
      rw [(hall k hk (by omega)).1] at hd
      simp at hd
      subst hd
      intro h; cases h

/-- Sampling directly from a valid CDF whose first probability is 0, with 32-bit values, yields
exactly the integers in the intervals over which the CDF increases. -/
theorem C14_cdf_uniform_support (c : Config) (pts : List (Rat × Int))
    (hc : c.cdfPoints = pts.map cdfPoint) (hv : ValidCdf pts) (hp : c.pmfPoints = [])
    (hn : c.fieldNames.Nodup) (h0 : ∀ p ∈ pts.head?, p.1 = 0)
    (hmax : ∀ p ∈ pts, InI32 p.2) :
    ∃ g, initGen id c = .ok g ∧ ∀ o, getRandomSample g o ↔
      ∃ k, ∃ hk : k + 1 < pts.length, pts[k].1 < pts[k + 1].1 ∧
        ∃ x, intervalLow pts k ≤ x ∧ x ≤ pts[k + 1].2 ∧ o = .ok [x] := by
  have hval := (C11_cdf_accepted_iff id c pts hc hv.1).2 ⟨hp, hn, hv⟩
  obtain ⟨hne, hpw, hhead, hlast⟩ := hv
  cases pts with
  | nil => exact absurd rfl hne
  | cons p0 rest =>
  have hz : p0.1 = 0 := h0 p0 (by simp)
  obtain ⟨ps, h1, h2, h3⟩ := cdfToPmfLoop_spec true rest p0.1 p0.2 (by
    intro p hp'
    have := hmax p (by simp [hp'])
    unfold InI64
    unfold InI32 at this
    omega)
  let first : PmfPoint := { pmf := .num p0.1, dataPoints := [{}] }
  have hall : ∀ k (hk : k < ps.length) (hk' : k + 1 < (p0 :: rest).length),
      ps[k].dataPoints
        = [{ lower := some (intervalLow (p0 :: rest) k), upper := some (p0 :: rest)[k + 1].2 }] ∧
      ps[k].pmf = .num ((p0 :: rest)[k + 1].1 - (p0 :: rest)[k].1) := by
    intro k hk hk'
    have := h3 k (by simpa using hk') (by simpa using hk)
    have hlow : lowerOf p0.2 rest k = intervalLow (p0 :: rest) k := by
      cases k with
      | zero => simp [lowerOf, intervalLow]
      | succ k =>
        have hk2 : k < rest.length := by simp at hk'; omega
        simp [lowerOf, intervalLow, List.getElem?_eq_getElem hk2]
    rw [hlow] at this
    refine ⟨by simpa using this.1, ?_⟩
    rw [this.2]
    have : (p0.1 :: rest.map (·.1))[k]? = some (p0 :: rest)[k].1 := by
      rw [show (p0.1 :: rest.map (·.1)) = (p0 :: rest).map (·.1) from rfl, List.getElem?_map,
        List.getElem?_eq_getElem (by omega)]
      rfl
    rw [this]
    simp
  have hpos : ∀ p ∈ first :: ps, ∀ q : Rat, p.pmf = .num q → 0 < q → p ∈ ps := by
    intro p hpm q hq hq0
    rcases List.mem_cons.1 hpm with rfl | h
    · simp only [first, F.num.injEq] at hq
      rw [← hq, hz] at hq0
      exact absurd hq0 (by decide +kernel)
    · exact h
  have hmono : ∀ k (hk : k + 1 < (p0 :: rest).length), (p0 :: rest)[k].2 < (p0 :: rest)[k + 1].2 ∧
      (p0 :: rest)[k].1 ≤ (p0 :: rest)[k + 1].1 := fun k hk =>
    (List.pairwise_iff_getElem.1 hpw) k (k + 1) (by omega) hk (by omega)
  refine ⟨initWithPmf (first :: ps), ?_, ?_⟩
  · unfold initGen
    rw [hval]
    have hcne : c.cdfPoints ≠ [] := by rw [hc]; simp
    simp only [if_pos hcne]
    rw [hc, List.map_cons]
    unfold initWithCdf
    simp only [cdfPoint, F.eq, decide_eq_true_eq]
    have hdz : decide (p0.1 = 0) = true := by simpa using hz
    rw [hdz]
    have h1' : cdfToPmfLoop id true (List.map (fun p : Rat × Int => ({ cdf := .num p.1, value := p.2 } : CdfPoint)) rest)
        (.num p0.1) p0.2 = some ps := h1
    rw [show (List.map cdfPoint rest) = (List.map (fun p : Rat × Int => ({ cdf := .num p.1, value := p.2 } : CdfPoint)) rest) from rfl]
    rw [h1']
    simp [first, hz]
  · intro o
    rw [sample_iff (first :: ps) 1 (by simp)]
    · constructor
      · rintro ⟨p, hpm, ⟨q, hq, hq0⟩, s, rfl, hsl, hsa⟩
        obtain ⟨k, hk, rfl⟩ := List.mem_iff_getElem.1 (hpos p hpm q hq hq0)
        have hk' : k + 1 < (p0 :: rest).length := by simp; omega
        obtain ⟨a, b⟩ := hall k hk hk'
        refine ⟨k, hk', ?_, ?_⟩
        · rw [b] at hq; cases hq; grind
        · rw [a] at hsl
          have hs0 : 0 < s.length := by simp at hsl; omega
          have := hsa 0 (by rw [a]; simp) hs0
          simp only [a, List.getElem_cons_zero, Admits] at this
          match s, hsl with
          | [x], _ => exact ⟨x, by simpa using this.1, by simpa using this.2, rfl⟩
      · rintro ⟨k, hk, hlt, x, hx1, hx2, rfl⟩
        have hk' : k < ps.length := by simp at hk; omega
        obtain ⟨a, b⟩ := hall k hk' hk
        refine ⟨ps[k], by simp, ⟨_, b, by grind⟩, _, rfl, by rw [a]; simp, ?_⟩
        intro i hi hi'
        have : i = 0 := by simp at hi'; omega
        subst this
        simp only [a, List.getElem_cons_zero, Admits]
        exact ⟨hx1, hx2⟩
    · intro p hpm
      rcases List.mem_cons.1 hpm with rfl | h
      · rfl
      · obtain ⟨k, hk, rfl⟩ := List.mem_iff_getElem.1 h
        rw [(hall k hk (by simp; omega)).1]; simp
    · refine ⟨?_, ?_⟩
      · intro w hw
        obtain ⟨p, hpm, rfl⟩ := List.mem_map.1 hw
        rcases List.mem_cons.1 hpm with rfl | h
        · exact ⟨p0.1, rfl, by rw [hz]; decide +kernel⟩
        · obtain ⟨k, hk, rfl⟩ := List.mem_iff_getElem.1 h
          have := (hmono k (by simp; omega)).2
          exact ⟨_, (hall k hk (by simp; omega)).2, by grind⟩
      · obtain ⟨k, hk, hlt⟩ := increment_pos p0.1 (rest.map (·.1)) (by rw [hz]; decide +kernel) (by
          have hl : (p0.1 :: rest.map (·.1))[(rest.map (·.1)).length]?
              = some ((p0 :: rest)[rest.length]).1 := by
            rw [show (p0.1 :: rest.map (·.1)) = (p0 :: rest).map (·.1) from rfl, List.getElem?_map,
              List.length_map, List.getElem?_eq_getElem (by simp)]
            rfl
          rw [hl]
          have := hlast (p0 :: rest)[rest.length] (by rw [List.getLast?_eq_getElem?]; simp)
          simpa using this)
        have hk2 : k < ps.length := by simp at hk; omega
        have hk3 : k + 1 < (p0 :: rest).length := by simp; omega
        refine ⟨ps[k].pmf, List.mem_map.2 ⟨ps[k], by simp, rfl⟩, _, (hall k hk2 hk3).2, ?_⟩
        have he : (p0.1 :: rest.map (·.1))[k]? = some (p0 :: rest)[k].1 := by
          rw [show (p0.1 :: rest.map (·.1)) = (p0 :: rest).map (·.1) from rfl, List.getElem?_map,
            List.getElem?_eq_getElem (by omega)]
          rfl
        rw [he] at hlt
        simp only [Option.getD_some, List.getElem_map] at hlt
        simp only [List.getElem_cons_succ]
        grind
    · intro p hpm q hq hq0 d hd
      obtain ⟨k, hk, rfl⟩ := List.mem_iff_getElem.1 (hpos p hpm q hq hq0)
      have hk3 : k + 1 < (p0 :: rest).length := by simp; omega
      rw [(hall k hk hk3).1] at hd
      simp only [List.mem_singleton] at hd
      subst hd
      intro _
      have ha := hmax (p0 :: rest)[k] (List.getElem_mem (by omega))
      have hb := hmax (p0 :: rest)[k + 1] (List.getElem_mem hk3)
      have hm := (hmono k hk3).1
      have hlow : intervalLow (p0 :: rest) k = (p0 :: rest)[k].2
          ∨ intervalLow (p0 :: rest) k = (p0 :: rest)[k].2 + 1 := by
        unfold intervalLow
        rw [List.getElem?_eq_getElem (by omega)]
        cases k with
        | zero => exact Or.inl rfl
        | succ k => exact Or.inr rfl
      unfold InI32 at *
      simp only [Option.getD_some]
      generalize (p0 :: rest)[k].2 = a at *
      generalize (p0 :: rest)[k + 1].2 = b at *
      generalize intervalLow (p0 :: rest) k = l at *
      omega

/-! ### C60: 64-bit ranges -/

/-- A cell samples what its data point says when it is an exact value (of any size) or an ordered
interval with 32-bit bounds.  Missing from the full property: wider intervals. -/
theorem C60_in_range_partial (d : DataPoint) (h : Bounds32 d) (o : Outcome Int) :
    cellDraw (cellOf d) o ↔ ∃ x, o = .ok x ∧ Admits d x := by
  constructor
  · exact cellDraw_admits h o
  · rintro ⟨x, rfl, hx⟩; exact admits_cellDraw h hx

example : Bounds32 { exact := some (2 ^ 62) } ∧ Bounds32 { lower := some (-5), upper := some 7 } := by
  constructor <;> simp [Bounds32, InI32]

/-- Interval bounds that do not fit in 32 bits are truncated: an accepted distribution over
[2^31, 2^31 + 10] can only produce negative numbers. -/
theorem C60_wide_bounds_truncated : ∃ c : Config, ∃ g,
    c.pmfPoints = [⟨.num 1, [{ lower := some (2 ^ 31), upper := some (2 ^ 31 + 10) }]⟩] ∧
    validate id c = .ok () ∧ initGen id c = .ok g ∧
    (∃ o, getRandomSample g o) ∧ ∀ s, getRandomSample g (.ok s) → ∀ x ∈ s, x < 0 := by
  refine ⟨{ pmfPoints := [⟨.num 1, [{ lower := some (2 ^ 31), upper := some (2 ^ 31 + 10) }]⟩] },
    { cells := [[.range (-2147483648) (-2147483638)]], weights := [.num 1] }, rfl, by decide +kernel,
    by decide +kernel, ⟨.ok [-2147483640], Or.inr ⟨?_, 0, 1, rfl, by decide +kernel, ?_⟩⟩, ?_⟩
  · refine ⟨by simp; decide +kernel, by simp; decide +kernel⟩
  · refine .step (c := .range (-2147483648) (-2147483638)) rfl ?_ .nil
    simp [cellDraw]
  · rintro s (⟨_, h⟩ | ⟨_, k, q, hk, _, hd⟩)
    · cases h
    · cases hd with
      | step h hc hl =>
        cases hl
        have : k = 0 := by
          cases k with
          | zero => rfl
          | succ k => simp at hk
        subst this
        simp only [List.getElem?_cons_zero, Option.some.injEq] at h
        subst h
        simp only [cellDraw] at hc
        rw [if_pos (by decide)] at hc
        obtain ⟨v, _, hv, h⟩ := hc
        cases h
        intro x hx
        simp only [List.mem_singleton] at hx
        omega

/-- The scalar sampling entry point works exactly for one-dimensional distributions: for any other
dimension it terminates the process. -/
theorem C14_scalar_needs_one_dimension (g : Gen) (o : Outcome Int) (h : getScalarRandomSample g o) :
    (g.cells.length ≠ 1 → o = .crash) ∧
    (g.cells.length = 1 → ∀ x, o = .ok x → getRandomSample g (.ok [x])) := by
  unfold getScalarRandomSample at h
  refine ⟨fun hn => by rw [if_pos hn] at h; exact h, ?_⟩
  intro h1 x hx
  rw [if_neg (by simpa using h1)] at h
  obtain ⟨s, hs, hm⟩ := h
  subst hx
  cases s with
  | error m => simp at hm
  | ub => simp at hm
  | crash => simp at hm
  | ok l =>
    simp only [Outcome.ok.injEq] at hm
    have hlen : l.length = 1 := by
      rcases hs with ⟨_, h⟩ | ⟨_, k, q, _, _, hd⟩
      · cases h
      · have : ∀ rows (o : Outcome (List Int)), DrawDims k rows o → ∀ l, o = .ok l → l.length = rows.length := by
          intro rows o hd
          induction hd with
          | nil => intro l h; cases h; rfl
          | oob => intro l h; cases h
          | bad => intro l h; cases h
          | later => intro l h; cases h
          | step _ _ _ ih => intro l h; cases h; simp [ih _ rfl]
        rw [this _ _ hd l rfl, h1]
    match l, hlen with
    | [y], _ => simp at hm; rw [hm]; exact hs

example : ∃ c : Config, ∃ qs : List Rat, c.pmfPoints.map (·.pmf) = qs.map F.num ∧ c.pmfPoints ≠ [] ∧
    (∀ q ∈ qs, 0 ≤ q) ∧ validate id c = .ok () ∧ (∀ p ∈ c.pmfPoints, ∀ d ∈ p.dataPoints, Bounds32 d) :=
  ⟨{ pmfPoints := [⟨.num (1/4), [{ exact := some 5 }, { exact := some 7 }]⟩,
      ⟨.num (3/4), [{ lower := some 1, upper := some 9 }, { exact := some 8 }]⟩] },
    [1/4, 3/4], rfl, by simp, by simp; decide +kernel, by decide +kernel,
    by simp [Bounds32, InI32]⟩

example : ValidCdf [(0, 10), (1/2, 20), (1, 30)] := by
  refine ⟨by simp, ?_, ?_, ?_⟩ <;> simp <;> decide +kernel

/-! The theorems above for these points. -/

theorem demo_cdf : ValidCdf [(0, 10), (1/2, 20), (1, 30)] := by
  refine ⟨by simp, ?_, ?_, ?_⟩ <;> simp <;> decide +kernel

theorem demo_cdf_exact : ValidCdf [(1/4, 10), (1/2, 20), (1, 30)] := by
  refine ⟨by simp, ?_, ?_, ?_⟩ <;> simp <;> decide +kernel

def demoUniform : Config := { cdfPoints := [(0, 10), (1/2, 20), (1, 30)].map cdfPoint }
def demoExact : Config := { cdfPoints := [(1/4, 10), (1/2, 20), (1, 30)].map cdfPoint }

example : validate id demoUniform = .ok () :=
  (C11_cdf_accepted_iff id demoUniform _ rfl (by simp)).2 ⟨rfl, .nil, demo_cdf⟩
example := C12_exact demoExact _ [] rfl demo_cdf_exact rfl .nil (by simp) (by simp; decide +kernel)
example := C12_uniform demoUniform _ [] rfl demo_cdf rfl .nil (by simp) (by simp) (by simp [InI64])
example := (C12_intervals_cover _ demo_cdf (by decide) 21).1
example := C14_cdf_exact_support demoExact _ rfl demo_cdf_exact rfl .nil (by simp; decide +kernel) (by simp [InI64])
example := C14_cdf_uniform_support demoUniform _ rfl demo_cdf rfl .nil (by simp) (by simp [InI32])

end Distbench
