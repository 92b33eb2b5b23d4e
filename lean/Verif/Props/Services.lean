import Verif.Lemmas.Names

/-! Properties C06–C10 and C58: grids, instance names, canonical services, name tables, settings. -/

namespace Distbench
open Services Spec

/-! ### C06 -/

/-- C06.  For every accepted service: each instance number below `count` has a coordinate inside
the grid whose instance number is the one started from (without overflow on the way), and every
coordinate inside the grid belongs to exactly one instance number below `count`. -/
theorem C06_grid_instance_bijection (raw s : ServiceSpec) (hfit : FieldsFit raw)
    (h : getCanonicalServiceSpec raw = .ok s) :
    (∀ i : Int, 0 ≤ i → i < s.count.getD 0 →
      ∃ g, getServiceIndex s i = some g ∧ InGrid s g ∧ getInstanceFromGridIndex s g = some i) ∧
    (∀ g, InGrid s g →
      ∃ i : Int, (0 ≤ i ∧ i < s.count.getD 0 ∧ getServiceIndex s i = some g) ∧
        getInstanceFromGridIndex s g = some i ∧
        ∀ j : Int, 0 ≤ j → j < s.count.getD 0 → getServiceIndex s j = some g → j = i) := by
  have hc := canon_of_ok hfit h
  refine ⟨fun i h0 hi => getServiceIndex_spec hc h0 hi, ?_⟩
  intro g hg
  obtain ⟨i, h1, h2, h3, h4⟩ := instance_of_grid hc hg
  refine ⟨i, ⟨h2, h3, h4⟩, h1, ?_⟩
  intro j j0 jc hj
  obtain ⟨g', k1, _, k3⟩ := getServiceIndex_spec hc j0 jc
  rw [hj] at k1
  have := Option.some.inj k1
  subst this
  rw [h1] at k3
  exact (Option.some.inj k3).symm

/-- A 3x4x5 grid is accepted, and instance 37 is the cell (1, 0, 3). -/
def sampleGrid : ServiceSpec :=
  { name := "leaf".toList, xSize := some 3, ySize := some 4, zSize := some 5 }

theorem sampleGrid_ok :
    FieldsFit sampleGrid ∧ getCanonicalServiceSpec sampleGrid
      = .ok { sampleGrid with count := some 60 } := by
  constructor
  · unfold FieldsFit sampleGrid InI32
    simp
  · decide

example : getServiceIndex { sampleGrid with count := some 60 } 37 = some ⟨1, 0, 3⟩ ∧
    getInstanceFromGridIndex { sampleGrid with count := some 60 } ⟨1, 0, 3⟩ = some 37 := by decide

/-! ### C07 -/

/-- C07.  For an accepted service with a slash-free name, the name of each instance parses back to
the coordinates of the instance, from which the instance number is recovered. -/
theorem C07_name_roundtrip (raw s : ServiceSpec) (hfit : FieldsFit raw)
    (h : getCanonicalServiceSpec raw = .ok s) (hn : '/' ∉ s.name) (i : Int) (h0 : 0 ≤ i)
    (hi : i < s.count.getD 0) :
    ∃ nm g, getInstanceName s i = some nm ∧ getGridIndexFromName nm = .ok g ∧
      getServiceIndex s i = some g ∧ getInstanceFromGridIndex s g = some i := by
  have hc := canon_of_ok hfit h
  obtain ⟨nm, g, rest, h1, h2, h3, _⟩ := name_roundtrip hc hn h0 hi
  obtain ⟨g', k1, _, k3⟩ := getServiceIndex_spec hc h0 hi
  rw [h2] at k1
  have := Option.some.inj k1
  subst this
  exact ⟨nm, g, h1, h3, h2, k3⟩

/-- C07.  Two instances with the same name are the same instance of the same-named service: with
distinct service names, instance names are unique across the whole configuration. -/
theorem C07_names_unique (raw₁ raw₂ s₁ s₂ : ServiceSpec) (hfit₁ : FieldsFit raw₁)
    (hfit₂ : FieldsFit raw₂) (h₁ : getCanonicalServiceSpec raw₁ = .ok s₁)
    (h₂ : getCanonicalServiceSpec raw₂ = .ok s₂) (hn₁ : '/' ∉ s₁.name) (hn₂ : '/' ∉ s₂.name)
    (i j : Int) (hi0 : 0 ≤ i) (hi : i < s₁.count.getD 0) (hj0 : 0 ≤ j) (hj : j < s₂.count.getD 0)
    (heq : getInstanceName s₁ i = getInstanceName s₂ j) :
    s₁.name = s₂.name ∧ (s₁ = s₂ → i = j) := by
  obtain ⟨nm, g, rest, a1, a2, a3, a4⟩ := name_roundtrip (canon_of_ok hfit₁ h₁) hn₁ hi0 hi
  obtain ⟨nm', g', rest', b1, b2, b3, b4⟩ := name_roundtrip (canon_of_ok hfit₂ h₂) hn₂ hj0 hj
  rw [a1, b1] at heq
  have := Option.some.inj heq
  subst this
  constructor
  · exact prefix_name_unique hn₁ hn₂ (a4.symm.trans b4)
  · intro he
    subst he
    rw [a3] at b3
    have hgg : g = g' := by injection b3
    subst hgg
    obtain ⟨g1, c1, _, c3⟩ := getServiceIndex_spec (canon_of_ok hfit₁ h₁) hi0 hi
    obtain ⟨g2, d1, _, d3⟩ := getServiceIndex_spec (canon_of_ok hfit₁ h₁) hj0 hj
    rw [a2] at c1
    rw [b2] at d1
    have e1 := Option.some.inj c1
    have e2 := Option.some.inj d1
    subst e1
    subst e2
    rw [c3] at d3
    exact Option.some.inj d3

example : getInstanceName { sampleGrid with count := some 60 } 37 = some "leaf/1/0/3".toList ∧
    getGridIndexFromName "leaf/1/0/3".toList = .ok ⟨1, 0, 3⟩ := by decide +kernel

/-- The slash-free hypothesis is needed, and nothing in the canonicalization enforces it: a 2D
service `a` and a 1D service `a/0`, both accepted, have an instance of the same name. -/
theorem C07_slash_names_collide :
    ∃ s₁ s₂ : ServiceSpec, s₁.name ≠ s₂.name ∧ getCanonicalServiceSpec s₁ = .ok s₁ ∧
      getCanonicalServiceSpec s₂ = .ok s₂ ∧
      ∃ i j : Int, 0 ≤ i ∧ i < s₁.getCount ∧ 0 ≤ j ∧ j < s₂.getCount ∧
        getInstanceName s₁ i = getInstanceName s₂ j :=
  ⟨{ name := ['a'], count := some 4, xSize := some 2, ySize := some 2 },
   { name := ['a', '/', '0'], count := some 2, xSize := some 2 },
   by decide, by decide, by decide, 2, 1, by decide, by decide, by decide, by decide,
   by decide +kernel⟩

/-! ### C08 -/

/-- The intermediate products of the sizes stay inside `int`. -/
def NoOverflow (s : ServiceSpec) : Prop :=
  s.xSize.getD 1 * s.ySize.getD 1 < 2 ^ 31 ∧ gridCells s < 2 ^ 31

theorem finishCanonical_eq (s r : ServiceSpec) (n : Int) :
    finishCanonical s n = .ok r ↔
      (∀ c, s.count = some c → c = n) ∧ r = { s with count := some n } := by
  unfold finishCanonical
  cases hc : s.count with
  | none => simp [eq_comm]
  | some c =>
    by_cases h : c = n
    · subst h
      have hs : ({ s with count := some c } : ServiceSpec) = s := by cases s; simp_all
      rw [hs]
      simp [eq_comm]
    · simp [h]

theorem finishCanonical_not_ub (s : ServiceSpec) (n : Int) :
    finishCanonical s n ≠ .ub ∧ finishCanonical s n ≠ .crash := by
  unfold finishCanonical
  split
  · split <;> simp
  · simp

/-- C08.  Exactly the well-shaped specifications (that do not overflow) are accepted; the result
has its count and grid in agreement and nothing else changed: with sizes given, the count is set
to the number of cells; without, the service becomes a one-dimensional grid of `count` cells. -/
theorem C08_canonical_iff (raw s : ServiceSpec) (hfit : FieldsFit raw) :
    getCanonicalServiceSpec raw = .ok s ↔
      WellShaped raw ∧ NoOverflow raw ∧
      s = if raw.xSize.isSome then { raw with count := some (gridCells raw) }
          else { raw with xSize := some (raw.count.getD 0) } := by
  have fx := hfit.2.1
  obtain ⟨nm, cnt, xs, ys, zs⟩ := raw
  unfold getCanonicalServiceSpec WellShaped NoOverflow gridCells
  cases xs with
  | none =>
    cases ys with
    | some y => simp
    | none =>
      cases zs with
      | some z => simp
      | none => simp [ServiceSpec.getCount, eq_comm]
  | some x =>
    have hx := fx x rfl
    by_cases x0 : x ≤ 0
    · simp only [if_pos x0]
      constructor
      · intro h; cases h
      · rintro ⟨⟨_, _, h, _⟩, _⟩
        have := h x rfl
        omega
    simp only [if_neg x0, Int.one_mul, chk32_of hx]
    cases ys with
    | none =>
      cases zs with
      | some z => simp
      | none =>
        rw [finishCanonical_eq]
        unfold InI32 at hx
        simp only [Option.isSome_none, Option.isSome_some, Option.getD_some, Option.getD_none,
          Int.mul_one, if_true, Option.some.injEq, reduceCtorEq, false_implies, implies_true,
          true_and, forall_eq', Bool.false_eq_true, forall_const]
        constructor
        · rintro ⟨h1, h2⟩
          exact ⟨⟨by omega, h1⟩, ⟨by omega, by omega⟩, h2⟩
        · rintro ⟨⟨_, h1⟩, _, h2⟩
          exact ⟨h1, h2⟩
    | some y =>
      by_cases y0 : y ≤ 0
      · simp only [if_pos y0]
        constructor
        · intro h; cases h
        · rintro ⟨⟨_, _, _, h, _⟩, _⟩
          have := h y rfl
          omega
      simp only [if_neg y0]
      have hxy0 : 0 < x * y := Int.mul_pos (by omega) (by omega)
      by_cases hxy : InI32 (x * y)
      · simp only [chk32_of hxy]
        unfold InI32 at hxy
        cases zs with
        | none =>
          simp only
          rw [finishCanonical_eq]
          simp only [Option.isSome_none, Option.isSome_some, Option.getD_some, Option.getD_none,
            Int.mul_one, if_true, Option.some.injEq, reduceCtorEq, false_implies, implies_true,
            true_and, forall_eq', Bool.false_eq_true, forall_const]
          constructor
          · rintro ⟨h1, h2⟩
            exact ⟨⟨by omega, by omega, h1⟩, ⟨by omega, by omega⟩, h2⟩
          · rintro ⟨⟨_, _, h1⟩, _, h2⟩
            exact ⟨h1, h2⟩
        | some z =>
          simp only
          by_cases z0 : z ≤ 0
          · simp only [if_pos z0]
            constructor
            · intro h; cases h
            · rintro ⟨⟨_, _, _, _, h, _⟩, _⟩
              have := h z rfl
              omega
          simp only [if_neg z0]
          have hxyz0 : 0 < x * y * z := Int.mul_pos hxy0 (by omega)
          by_cases hxyz : InI32 (x * y * z)
          · simp only [chk32_of hxyz]
            unfold InI32 at hxyz
            rw [finishCanonical_eq]
            simp only [Option.isSome_some, Option.getD_some, if_true, Option.some.injEq,
              implies_true, true_and, forall_eq', forall_const]
            constructor
            · rintro ⟨h1, h2⟩
              exact ⟨⟨by omega, by omega, by omega, h1⟩, ⟨by omega, by omega⟩, h2⟩
            · rintro ⟨⟨_, _, _, h1⟩, _, h2⟩
              exact ⟨h1, h2⟩
          · simp only [chk32, if_neg hxyz]
            constructor
            · intro h; cases h
            · rintro ⟨_, ⟨_, h⟩, _⟩
              exfalso
              apply hxyz
              unfold InI32
              simp only [Option.getD_some] at h
              omega
      · simp only [chk32, if_neg hxy]
        constructor
        · intro h; cases h
        · rintro ⟨_, ⟨h, _⟩, _⟩
          exfalso
          apply hxy
          unfold InI32
          simp only [Option.getD_some] at h
          omega

/-- C08, readable consequence: in an accepted service the count is the number of grid cells, and a
one-dimensional size is always present. -/
theorem C08_accepted_consistent (raw s : ServiceSpec) (hfit : FieldsFit raw)
    (h : getCanonicalServiceSpec raw = .ok s) :
    s.count.getD 0 = gridCells s ∧ s.xSize.isSome ∧ s.name = raw.name ∧
    (raw.xSize.isSome → s.count = some (gridCells raw)) ∧ (raw.count.isSome → s.count = raw.count) := by
  have hc := canon_cells (canon_of_ok hfit h)
  obtain ⟨h1, h2, h3⟩ := (C08_canonical_iff raw s hfit).1 h
  refine ⟨hc, ?_, ?_, ?_, ?_⟩
  · rw [h3]; split <;> simp_all
  · rw [h3]; split <;> rfl
  · intro hx; rw [h3, if_pos hx]
  · intro hcn
    rw [h3]
    split
    · rename_i hx
      obtain ⟨c, hc⟩ := Option.isSome_iff_exists.1 hcn
      have := h1.2.2.2.2.2 hx c hc
      rw [hc, this]
    · rfl

/-- C08.  A count that disagrees with the shape is rejected with an error (never silently
accepted, and undefined behaviour only arises from an overflowing product of sizes). -/
theorem C08_mismatch_rejected (raw : ServiceSpec) (hfit : FieldsFit raw) (hno : NoOverflow raw)
    (hx : raw.xSize.isSome) (c : Int) (hc : raw.count = some c) (hne : c ≠ gridCells raw)
    (hpos : ∀ n, raw.xSize = some n ∨ raw.ySize = some n ∨ raw.zSize = some n → 0 < n) :
    ∃ msg, getCanonicalServiceSpec raw = .error msg := by
  cases h : getCanonicalServiceSpec raw with
  | ok s => exact absurd (((C08_canonical_iff raw s hfit).1 h).1.2.2.2.2.2 hx c hc) hne
  | error m => exact ⟨m, rfl⟩
  | _ =>
    exfalso
    have fx := hfit.2.1
    obtain ⟨nm, cnt, xs, ys, zs⟩ := raw
    obtain ⟨x, rfl⟩ := Option.isSome_iff_exists.1 hx
    have x0 := hpos x (Or.inl rfl)
    have hxf := fx x rfl
    unfold getCanonicalServiceSpec at h
    unfold NoOverflow gridCells at hno
    simp only [if_neg (show ¬ x ≤ 0 by omega), Int.one_mul, chk32_of hxf] at h
    cases ys with
    | none =>
      cases zs with
      | none => first | exact (finishCanonical_not_ub _ _).1 h | exact (finishCanonical_not_ub _ _).2 h
      | some z => cases h
    | some y =>
      have y0 := hpos y (Or.inr (Or.inl rfl))
      have hxy0 : 0 < x * y := Int.mul_pos x0 y0
      simp only [Option.getD_some] at hno
      have hxy : InI32 (x * y) := by unfold InI32; omega
      simp only [if_neg (show ¬ y ≤ 0 by omega), chk32_of hxy] at h
      cases zs with
      | none => first | exact (finishCanonical_not_ub _ _).1 h | exact (finishCanonical_not_ub _ _).2 h
      | some z =>
        have z0 := hpos z (Or.inr (Or.inr rfl))
        have hxyz0 : 0 < x * y * z := Int.mul_pos hxy0 z0
        simp only [Option.getD_some] at hno
        have hxyz : InI32 (x * y * z) := by unfold InI32; omega
        simp only [if_neg (show ¬ z ≤ 0 by omega), chk32_of hxyz] at h
        first | exact (finishCanonical_not_ub _ _).1 h | exact (finishCanonical_not_ub _ _).2 h

example : getCanonicalServiceSpec { name := ['a'], count := some 5, xSize := some 2, ySize := some 3 }
    = .error "count does not match x/y/z size" := by decide

/-! ### C58 -/

/-- C58 (partial: services with a positive count or explicit sizes).  Canonicalizing an accepted
service again returns it unchanged. -/
theorem C58_canonical_idempotent_partial (raw s : ServiceSpec) (hfit : FieldsFit raw)
    (h : getCanonicalServiceSpec raw = .ok s) (hpos : raw.xSize.isSome ∨ 0 < raw.count.getD 0) :
    getCanonicalServiceSpec s = .ok s := by
  have hcan := canon_of_ok hfit h
  obtain ⟨h1, h2, h3⟩ := (C08_canonical_iff raw s hfit).1 h
  have cells := canon_cells hcan
  have hfit' : FieldsFit s := by
    unfold FieldsFit
    have hr := hfit
    obtain ⟨f1, f2, f3, f4⟩ := hfit
    have hx : ∀ c, s.xSize = some c → InI32 c := by
      rw [h3]
      split
      · exact f2
      · intro c hc
        simp only [Option.some.injEq] at hc
        subst hc
        cases hrc : raw.count with
        | none => decide
        | some d => exact f1 d hrc
    refine ⟨?_, hx, ?_, ?_⟩
    · intro c hc
      cases hcan with
      | one x _ _ _ e r => simp only [ServiceSpec.getCount, hc, Option.getD_some] at e; rw [e]; exact r
      | two x y _ _ _ e _ _ r => rw [hc] at e; rw [Option.some.inj e]; exact r
      | three x y z _ _ _ e _ _ _ _ r => rw [hc] at e; rw [Option.some.inj e]; exact r
    · rw [h3]; split <;> exact f3
    · rw [h3]; split <;> exact f4
  rw [C08_canonical_iff s s hfit']
  by_cases hx : raw.xSize.isSome
  · rw [if_pos hx] at h3
    subst h3
    refine ⟨?_, h2, ?_⟩
    · refine ⟨h1.1, h1.2.1, h1.2.2.1, h1.2.2.2.1, h1.2.2.2.2.1, ?_⟩
      intro _ c hc
      simp only [Option.some.injEq] at hc
      exact hc.symm
    · rw [if_pos hx]; rfl
  · rw [if_neg hx] at h3
    have hx' : raw.xSize = none := by simpa using hx
    have hy : raw.ySize = none := by
      cases hy : raw.ySize with
      | none => rfl
      | some y => exact absurd (h1.2.1 (by simp [hy])) hx
    have hz : raw.zSize = none := by
      cases hz : raw.zSize with
      | none => rfl
      | some z =>
        have := h1.1 (by simp [hz])
        simp [hy] at this
    have hpos : 0 < raw.count.getD 0 := by
      rcases hpos with h | h
      · exact absurd h hx
      · exact h
    obtain ⟨c, hc⟩ : ∃ c, raw.count = some c := by
      cases hc : raw.count with
      | none => rw [hc] at hpos; simp at hpos
      | some c => exact ⟨c, rfl⟩
    have hcr := hfit.1 c hc
    rw [hc] at hpos
    simp only [Option.getD_some] at hpos
    unfold InI32 at hcr
    subst h3
    simp only [WellShaped, NoOverflow, gridCells, hy, hz, hc, Option.getD_some, Option.getD_none,
      Option.isSome_some, Option.isSome_none, if_true]
    simp
    omega

/-- The full idempotence claim is false: a service given no count, or a count of zero, is accepted
and canonicalizing the result is an error. -/
theorem C58_not_idempotent :
    ∃ raw s, FieldsFit raw ∧ getCanonicalServiceSpec raw = .ok s ∧
      ∃ msg, getCanonicalServiceSpec s = .error msg :=
  ⟨{ name := ['a'], count := some 0 }, { name := ['a'], count := some 0, xSize := some 0 },
   by unfold FieldsFit InI32; simp, by decide, _, (by decide :
     getCanonicalServiceSpec { name := ['a'], count := some 0, xSize := some 0 }
       = .error "x_size must be positive")⟩

example : getCanonicalServiceSpec { sampleGrid with count := some 60 }
    = .ok { sampleGrid with count := some 60 } :=
  C58_canonical_idempotent_partial sampleGrid _ sampleGrid_ok.1 sampleGrid_ok.2 (Or.inl rfl)

/-! ### C09 -/

/-- C09, services.  With distinct names the table has one entry per service, the i-th service has
index i, and unknown names have none. -/
theorem C09_service_indices (services : List ServiceSpec) (hnd : (services.map (·.name)).Nodup) :
    (enumerateServiceTypes services).length = services.length ∧
    (∀ i (hi : i < services.length),
      (enumerateServiceTypes services).find services[i].name = some (i : Int)) ∧
    (∀ n, (∀ s ∈ services, s.name ≠ n) → (enumerateServiceTypes services).find n = none) := by
  obtain ⟨h1, h2, h3⟩ := enumerate_spec _ hnd
  refine ⟨by simpa [enumerateServiceTypes] using h1, ?_, ?_⟩
  · intro i hi
    have := h2 i (by simpa using hi)
    simpa [enumerateServiceTypes] using this
  · intro n hn
    refine h3 n ?_
    rw [List.mem_map]
    rintro ⟨s, hs, rfl⟩
    exact hn s hs rfl

/-- C09, sizes.  With distinct names the table of sizes holds the declared count of every service
and nothing else. -/
theorem C09_service_sizes (services : List ServiceSpec) (hnd : (services.map (·.name)).Nodup) :
    (∀ s ∈ services, (enumerateServiceSizes services).find s.name = some (s.count.getD 0)) ∧
    (∀ n, n ∉ services.map (·.name) → (enumerateServiceSizes services).find n = none) := by
  have key : ∀ (services : List ServiceSpec) (m : NameMap), (services.map (·.name)).Nodup →
      (∀ s ∈ services, (services.foldl (fun ret s => ret.set s.name s.getCount) m).find s.name
        = some (s.count.getD 0)) ∧
      (∀ n, n ∉ services.map (·.name) →
        (services.foldl (fun ret s => ret.set s.name s.getCount) m).find n = m.find n) := by
    intro services
    induction services with
    | nil => intro m _; exact ⟨by simp, fun n _ => rfl⟩
    | cons s services ih =>
      intro m hnd
      rw [List.map_cons, List.nodup_cons] at hnd
      obtain ⟨h1, h2⟩ := ih (m.set s.name s.getCount) hnd.2
      rw [List.foldl_cons]
      constructor
      · intro x hx
        rcases List.mem_cons.1 hx with rfl | hx
        · rw [h2 _ hnd.1, NameMap.find_set_self]; rfl
        · exact h1 x hx
      · intro n hn
        rw [List.map_cons, List.mem_cons, not_or] at hn
        rw [h2 n hn.2, NameMap.find_set_ne _ _ hn.1]
  exact key services [] hnd

example := C09_service_sizes
  [{ name := "a".toList, count := some 3 }, { name := "b".toList, count := some 4 }] (by decide)

/-- Looking up a service by name finds the declared service, and fails exactly for other names. -/
theorem C09_service_lookup (services : List ServiceSpec) (hnd : (services.map (·.name)).Nodup) :
    (∀ s ∈ services, getServiceSpec s.name services = .ok s) ∧
    (∀ n, n ∉ services.map (·.name) → ∃ m, getServiceSpec n services = .error m) := by
  unfold getServiceSpec
  constructor
  · intro s hs
    have : services.find? (fun x => x.name == s.name) = some s := by
      induction services with
      | nil => simp at hs
      | cons x services ih =>
        rw [List.map_cons, List.nodup_cons] at hnd
        rw [List.find?_cons]
        rcases List.mem_cons.1 hs with rfl | hs
        · simp
        · have hne : x.name ≠ s.name := by
            intro e
            exact hnd.1 (e ▸ List.mem_map.2 ⟨s, hs, rfl⟩)
          simp only [beq_eq_false_iff_ne.2 hne]
          exact ih hnd.2 hs
    rw [this]
  · intro n hn
    have : services.find? (fun x => x.name == n) = none := by
      rw [List.find?_eq_none]
      intro x hx
      simp only [beq_iff_eq]
      rintro rfl
      exact hn (List.mem_map.2 ⟨x, hx, rfl⟩)
    rw [this]
    exact ⟨_, rfl⟩

/-- C09, RPCs. -/
theorem C09_rpc_indices (names : List Str) (hnd : names.Nodup) :
    (enumerateRpcs names).length = names.length ∧
    (∀ i (hi : i < names.length), (enumerateRpcs names).find names[i] = some (i : Int)) ∧
    (∀ n, n ∉ names → (enumerateRpcs names).find n = none) :=
  enumerate_spec names hnd

/-- C09, instances.  For accepted services with distinct slash-free names, the table of instance
ids is defined, has as many entries as instances were declared, maps the j-th instance of the k-th
service to the number of instances of earlier services plus j, and `AllServiceInstances` lists the
names in the order of their ids. -/
theorem C09_instance_ids (services : List ServiceSpec)
    (hc : ∀ s ∈ services, ∃ raw, FieldsFit raw ∧ getCanonicalServiceSpec raw = .ok s)
    (hsl : ∀ s ∈ services, '/' ∉ s.name) (hnd : (services.map (·.name)).Nodup) :
    ∃ table names, enumerateServiceInstanceIds services = some table ∧
      allServiceInstances services = some names ∧
      names.Nodup ∧ names.length = totalCount services ∧ table.length = totalCount services ∧
      (∀ i (hi : i < names.length), table.find names[i] = some (i : Int)) ∧
      (∀ n, n ∉ names → table.find n = none) ∧
      (∀ (k : Nat) (hk : k < services.length) (j : Nat), (j : Int) < services[k].count.getD 0 →
        ∃ nm, getInstanceName services[k] j = some nm ∧
          table.find nm = some ((totalCount (services.take k) + j : Nat) : Int)) := by
  have hcan : ∀ s ∈ services, Canon s := by
    intro s hs
    obtain ⟨raw, h1, h2⟩ := hc s hs
    exact canon_of_ok h1 h2
  obtain ⟨L, h1, h2, h3, h4, h5⟩ := allServiceInstances_spec hcan hsl hnd
  obtain ⟨e1, e2, e3⟩ := enumerate_spec L.flatten h2
  refine ⟨enumerate L.flatten, L.flatten, by simp [enumerateServiceInstanceIds, h1],
    by simp [allServiceInstances, h1], h2, h3, by rw [e1, h3], e2, e3, ?_⟩
  intro k hk j hj
  obtain ⟨hh, hv⟩ := h5 k hk j hj
  exact ⟨_, hv, e2 _ hh⟩

/-- Distinctness is needed and is not checked anywhere: with a repeated name two different names
get the same index. -/
theorem C09_duplicate_names_collide :
    ∃ names : List Str, ∃ a b, a ∈ names ∧ b ∈ names ∧ a ≠ b ∧
      (enumerateRpcs names).find a = (enumerateRpcs names).find b ∧
      (enumerateRpcs names).find a ≠ none :=
  ⟨[['a'], ['a'], ['b']], ['a'], ['b'], by decide, by decide, by decide, by decide, by decide⟩

example : ∃ table, enumerateServiceInstanceIds
    [{ sampleGrid with count := some 60 }, { name := ['b'], count := some 2, xSize := some 2 }]
      = some table ∧ table.find ['b', '/', '1'] = some 61 := by
  obtain ⟨table, names, h1, -, -, -, -, -, -, h⟩ := C09_instance_ids
    [{ sampleGrid with count := some 60 }, { name := ['b'], count := some 2, xSize := some 2 }]
    (by
      intro s hs
      rw [List.mem_cons, List.mem_singleton] at hs
      rcases hs with rfl | rfl
      · exact ⟨_, sampleGrid_ok⟩
      · exact ⟨{ name := ['b'], count := some 2 }, by unfold FieldsFit InI32; simp, by decide⟩)
    (by decide) (by decide)
  refine ⟨table, h1, ?_⟩
  obtain ⟨nm, a, b⟩ := h 1 (by decide) 1 (by decide)
  have : nm = ['b', '/', '1'] := by
    have h2 : getInstanceName { name := ['b'], count := some 2, xSize := some 2 } 1
        = some ['b', '/', '1'] := by decide +kernel
    exact Option.some.inj (a.symm.trans h2)
  subst this
  exact b

/-! ### C10 -/

/-- C10, strings.  The result is the value of the first entry with the requested name and type, if
there is one, else the default. -/
theorem C10_string_setting (settings : List NamedSetting) (n d r : Str) :
    getNamedSettingString settings n d = r ↔
      (∃ pre e post, settings = pre ++ e :: post ∧ StringEntry n r e ∧
        ∀ e' ∈ pre, ∀ v, ¬ StringEntry n v e') ∨
      ((∀ e ∈ settings, ∀ v, ¬ StringEntry n v e) ∧ r = d) := by
  induction settings with
  | nil => simp [getNamedSettingString, eq_comm]
  | cons s rest ih =>
    by_cases hs : ∃ v, StringEntry n v s
    · obtain ⟨v, hv⟩ := hs
      have heval : getNamedSettingString (s :: rest) n d = v := by
        unfold getNamedSettingString
        simp [hv.1, hv.2.1, hv.2.2]
      rw [heval]
      constructor
      · rintro rfl
        exact Or.inl ⟨[], s, rest, rfl, hv, by simp⟩
      · rintro (⟨pre, e, post, h1, h2, h3⟩ | ⟨h, _⟩)
        · cases pre with
          | nil =>
            injection h1 with h1 _
            subst h1
            have := hv.2.1.symm.trans h2.2.1
            exact Option.some.inj this
          | cons p pre =>
            injection h1 with h1 _
            subst h1
            exact absurd hv (h3 s (by simp) v)
        · exact absurd hv (h s (by simp) v)
    · have heval : getNamedSettingString (s :: rest) n d = getNamedSettingString rest n d := by
        rw [getNamedSettingString]
        split
        · rfl
        · rename_i m hm
          split
          · rfl
          · rename_i hmn
            split
            · rfl
            · rename_i hi
              split
              · rename_i v hv
                refine absurd ⟨v, ?_, hv, hi⟩ hs
                rw [hm]
                congr 1
                exact Classical.not_not.1 hmn
              · rfl
      rw [heval, ih]
      constructor
      · rintro (⟨pre, e, post, h1, h2, h3⟩ | ⟨h, hr⟩)
        · refine Or.inl ⟨s :: pre, e, post, by rw [h1]; rfl, h2, ?_⟩
          intro e' he' v hv
          rcases List.mem_cons.1 he' with rfl | he'
          · exact hs ⟨v, hv⟩
          · exact h3 e' he' v hv
        · refine Or.inr ⟨?_, hr⟩
          intro e' he' v hv
          rcases List.mem_cons.1 he' with rfl | he'
          · exact hs ⟨v, hv⟩
          · exact h e' he' v hv
      · rintro (⟨pre, e, post, h1, h2, h3⟩ | ⟨h, hr⟩)
        · cases pre with
          | nil =>
            injection h1 with h1 _
            subst h1
            exact absurd ⟨r, h2⟩ hs
          | cons p pre =>
            injection h1 with h0 h1
            exact Or.inl ⟨pre, e, post, h1, h2, fun e' he' => h3 e' (by simp [he'])⟩
        · exact Or.inr ⟨fun e he => h e (by simp [he]), hr⟩

/-- C10, integers. -/
theorem C10_int_setting (settings : List NamedSetting) (n : Str) (d r : Int) :
    getNamedSettingInt64 settings n d = r ↔
      (∃ pre e post, settings = pre ++ e :: post ∧ IntEntry n r e ∧
        ∀ e' ∈ pre, ∀ v, ¬ IntEntry n v e') ∨
      ((∀ e ∈ settings, ∀ v, ¬ IntEntry n v e) ∧ r = d) := by
  induction settings with
  | nil => simp [getNamedSettingInt64, eq_comm]
  | cons s rest ih =>
    by_cases hs : ∃ v, IntEntry n v s
    · obtain ⟨v, hv⟩ := hs
      have heval : getNamedSettingInt64 (s :: rest) n d = v := by
        unfold getNamedSettingInt64
        simp [hv.1, hv.2.1, hv.2.2]
      rw [heval]
      constructor
      · rintro rfl
        exact Or.inl ⟨[], s, rest, rfl, hv, by simp⟩
      · rintro (⟨pre, e, post, h1, h2, h3⟩ | ⟨h, _⟩)
        · cases pre with
          | nil =>
            injection h1 with h1 _
            subst h1
            have := hv.2.1.symm.trans h2.2.1
            exact Option.some.inj this
          | cons p pre =>
            injection h1 with h1 _
            subst h1
            exact absurd hv (h3 s (by simp) v)
        · exact absurd hv (h s (by simp) v)
    · have heval : getNamedSettingInt64 (s :: rest) n d = getNamedSettingInt64 rest n d := by
        rw [getNamedSettingInt64]
        split
        · rfl
        · rename_i m hm
          split
          · rfl
          · rename_i hmn
            split
            · rfl
            · rename_i hi
              split
              · rename_i v hv
                refine absurd ⟨v, ?_, hv, hi⟩ hs
                rw [hm]
                congr 1
                exact Classical.not_not.1 hmn
              · rfl
      rw [heval, ih]
      constructor
      · rintro (⟨pre, e, post, h1, h2, h3⟩ | ⟨h, hr⟩)
        · refine Or.inl ⟨s :: pre, e, post, by rw [h1]; rfl, h2, ?_⟩
          intro e' he' v hv
          rcases List.mem_cons.1 he' with rfl | he'
          · exact hs ⟨v, hv⟩
          · exact h3 e' he' v hv
        · refine Or.inr ⟨?_, hr⟩
          intro e' he' v hv
          rcases List.mem_cons.1 he' with rfl | he'
          · exact hs ⟨v, hv⟩
          · exact h e' he' v hv
      · rintro (⟨pre, e, post, h1, h2, h3⟩ | ⟨h, hr⟩)
        · cases pre with
          | nil =>
            injection h1 with h1 _
            subst h1
            exact absurd ⟨r, h2⟩ hs
          | cons p pre =>
            injection h1 with h0 h1
            exact Or.inl ⟨pre, e, post, h1, h2, fun e' he' => h3 e' (by simp [he'])⟩
        · exact Or.inr ⟨fun e he => h e (by simp [he]), hr⟩

example : getNamedSettingInt64
    [{ name := none, int64Value := some 1 }, { name := some ['t'], stringValue := some ['x'] },
     { name := some ['t'], int64Value := some 7 }, { name := some ['t'], int64Value := some 8 }]
    ['t'] 3 = 7 :=
  (C10_int_setting _ _ _ _).2 (Or.inl ⟨[{ name := none, int64Value := some 1 },
    { name := some ['t'], stringValue := some ['x'] }], _, _, rfl, ⟨rfl, rfl, rfl⟩, by
      simp [IntEntry]⟩)

end Distbench
