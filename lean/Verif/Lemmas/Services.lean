import Verif.Spec.Services

namespace Distbench.Services
open Spec

/-- What acceptance by `getCanonicalServiceSpec` means, by shape. -/
inductive Canon (s : ServiceSpec) : Prop where
  | one (x : Int) (hx : s.xSize = some x) (hy : s.ySize = none) (hz : s.zSize = none)
      (hc : s.getCount = x) (hr : InI32 x)
  | two (x y : Int) (hx : s.xSize = some x) (hy : s.ySize = some y) (hz : s.zSize = none)
      (hc : s.count = some (x * y)) (px : 0 < x) (py : 0 < y) (hr : InI32 (x * y))
  | three (x y z : Int) (hx : s.xSize = some x) (hy : s.ySize = some y) (hz : s.zSize = some z)
      (hc : s.count = some (x * y * z)) (px : 0 < x) (py : 0 < y) (pz : 0 < z)
      (hr : InI32 (x * y)) (hr2 : InI32 (x * y * z))

theorem chk32_eq_some {n m : Int} : chk32 n = some m ↔ InI32 n ∧ m = n := by
  unfold chk32
  split
  · rename_i h; simp [h, eq_comm]
  · rename_i h; simp [h]

theorem chk32_of {n : Int} (h : InI32 n) : chk32 n = some n := chk32_eq_some.2 ⟨h, rfl⟩

theorem finishCanonical_ok {s r : ServiceSpec} {n : Int} (h : finishCanonical s n = .ok r) :
    r.name = s.name ∧ r.xSize = s.xSize ∧ r.ySize = s.ySize ∧ r.zSize = s.zSize ∧
    r.count = some n := by
  unfold finishCanonical at h
  split at h
  · rename_i c hc
    split at h
    · cases h
    · injection h with h
      subst h
      simp_all
  · injection h with h
    subst h
    simp

/-- Shape of accepted specifications. -/
theorem canon_of_ok {raw s : ServiceSpec} (hfit : FieldsFit raw)
    (h : getCanonicalServiceSpec raw = .ok s) : Canon s := by
  unfold getCanonicalServiceSpec at h
  split at h
  · rename_i x hx
    split at h
    · cases h
    · rename_i hx0
      split at h
      · cases h
      · rename_i xyz hxyz
        rw [chk32_eq_some] at hxyz
        obtain ⟨hr1, rfl⟩ := hxyz
        split at h
        · rename_i y hy
          split at h
          · cases h
          · split at h
            · cases h
            · rename_i hy0 _ _ hxyz2
              rw [chk32_eq_some] at hxyz2
              obtain ⟨hr2, rfl⟩ := hxyz2
              split at h
              · rename_i z hz
                split at h
                · cases h
                · split at h
                  · cases h
                  · rename_i hz0 _ _ hxyz3
                    rw [chk32_eq_some] at hxyz3
                    obtain ⟨hr3, rfl⟩ := hxyz3
                    obtain ⟨_, e1, e2, e3, e4⟩ := finishCanonical_ok h
                    rw [Int.one_mul] at *
                    exact .three x y z (e1.trans hx) (e2.trans hy) (e3.trans hz) e4 (by omega)
                      (by omega) (by omega) hr2 hr3
              · rename_i hz
                obtain ⟨_, e1, e2, e3, e4⟩ := finishCanonical_ok h
                rw [Int.one_mul] at *
                exact .two x y (e1.trans hx) (e2.trans hy) (e3.trans hz) e4 (by omega)
                  (by omega) hr2
        · rename_i hy
          split at h
          · cases h
          · rename_i hz
            obtain ⟨_, e1, e2, e3, e4⟩ := finishCanonical_ok h
            rw [Int.one_mul] at *
            exact .one x (e1.trans hx) (e2.trans hy) (e3.trans hz)
              (by simp [ServiceSpec.getCount, e4]) hr1
  · split at h
    · cases h
    · split at h
      · cases h
      · injection h with h
        subst h
        refine .one raw.getCount rfl (by assumption) (by assumption) rfl ?_
        unfold ServiceSpec.getCount
        cases hc : raw.count with
        | none => decide
        | some c => exact hfit.1 c hc

theorem canon_cells {s : ServiceSpec} (h : Canon s) : s.getCount = gridCells s := by
  unfold gridCells
  cases h with
  | one x hx hy hz hc hr => simp [hx, hy, hz, hc]
  | two x y hx hy hz hc => simp [hx, hy, hz, hc, ServiceSpec.getCount]
  | three x y z hx hy hz hc => simp [hx, hy, hz, hc, ServiceSpec.getCount]

/-! #### arithmetic of grids -/

theorem cdiv_nonneg {a b : Int} (ha : 0 ≤ a) (har : InI32 a) (hb : 0 < b) :
    cdiv a b = some (a / b) := by
  unfold cdiv
  rw [if_neg (by omega), Int.tdiv_eq_ediv_of_nonneg ha]
  apply chk32_of
  have h1 := Int.ediv_le_self b ha
  have h2 := Int.ediv_nonneg ha (Int.le_of_lt hb)
  unfold InI32 at *
  omega

theorem cmod_nonneg {a b : Int} (ha : 0 ≤ a) (har : InI32 a) (hb : 0 < b) :
    cmod a b = some (a % b) := by
  unfold cmod
  rw [if_neg (by omega), Int.tdiv_eq_ediv_of_nonneg ha, Int.tmod_eq_emod_of_nonneg ha]
  rw [if_pos]
  have h1 := Int.ediv_le_self b ha
  have h2 := Int.ediv_nonneg ha (Int.le_of_lt hb)
  unfold InI32 at *
  omega

theorem ediv_lt_of {a b c : Int} (hb : 0 < b) (h : a < b * c) : a / b < c :=
  Int.ediv_lt_of_lt_mul hb (by rw [Int.mul_comm]; exact h)

/-- Decompose an instance number. -/
theorem decompose (i x y : Int) : i % x + (i / x % y) * x + (i / x / y) * x * y = i := by
  have h1 := Int.emod_add_mul_ediv i x
  have h2 := Int.emod_add_mul_ediv (i / x) y
  have h3 : x * (i / x) = (i / x % y) * x + (i / x / y) * x * y := by
    conv => lhs; rw [← h2]
    rw [Int.mul_add, Int.mul_comm x (i / x % y), Int.mul_comm y, ← Int.mul_assoc,
      Int.mul_comm x (i / x / y)]
  omega

theorem mul_le_bound {a b c d : Int} (ha : 0 ≤ a) (hab : a ≤ b) (hc : 0 ≤ c) (hcd : c ≤ d) :
    a * c ≤ b * d :=
  Int.mul_le_mul hab hcd hc (by omega)

theorem getServiceIndex_spec {s : ServiceSpec} (h : Canon s) {i : Int} (h0 : 0 ≤ i)
    (hi : i < s.getCount) :
    ∃ g, getServiceIndex s i = some g ∧ InGrid s g ∧ getInstanceFromGridIndex s g = some i := by
  have hri : InI32 i := by
    cases h with
    | one x hx hy hz hc hr => unfold InI32 at *; omega
    | two x y hx hy hz hc px py hr => 
      simp only [ServiceSpec.getCount, hc, Option.getD_some] at hi
      unfold InI32 at *; omega
    | three x y z hx hy hz hc px py pz hr hr2 =>
      simp only [ServiceSpec.getCount, hc, Option.getD_some] at hi
      unfold InI32 at *; omega
  cases h with
  | one x hx hy hz hc hr =>
    rw [hc] at hi
    have hm : i % x = i := Int.emod_eq_of_lt h0 hi
    refine ⟨⟨i, 0, 0⟩, ?_, ?_, ?_⟩
    · unfold getServiceIndex
      simp only [hx, hy, cmod_nonneg h0 hri (show 0 < x by omega), hm]
      rfl
    · simp [InGrid, hx, hy, hz, h0, hi]
    · unfold getInstanceFromGridIndex
      have z0 : chk32 0 = some 0 := by decide
      simp [z0, chk32_of hri]
  | two x y hx hy hz hc px py hr =>
    simp only [ServiceSpec.getCount, hc, Option.getD_some] at hi
    have q0 : 0 ≤ i / x := Int.ediv_nonneg h0 (by omega)
    have q1 : i / x < y := ediv_lt_of px hi
    have hqle := Int.ediv_le_self x h0
    have hm : i / x % y = i / x := Int.emod_eq_of_lt q0 q1
    have m0 := Int.emod_nonneg i (show x ≠ 0 by omega)
    have m1 := Int.emod_lt_of_pos i px
    have hde := Int.emod_add_mul_ediv i x
    have hmul : 0 ≤ x * (i / x) := Int.mul_nonneg (by omega) q0
    refine ⟨⟨i % x, i / x, 0⟩, ?_, ?_, ?_⟩
    · unfold getServiceIndex
      simp only [hx, hy, hz, cmod_nonneg h0 hri px, cdiv_nonneg h0 hri px]
      have : InI32 (i / x) := by unfold InI32 at *; omega
      simp [cmod_nonneg q0 this py, hm]
    · simp [InGrid, hx, hy, hz, m0, m1, q0, q1]
    · unfold getInstanceFromGridIndex
      have z0 : chk32 0 = some 0 := by decide
      have c1 : InI32 (i / x * x) := by rw [Int.mul_comm]; unfold InI32 at *; omega
      have e1 : i % x + i / x * x = i := by rw [Int.mul_comm]; exact hde
      simp [ServiceSpec.getX, hx, z0, chk32_of c1, e1, chk32_of hri]
  | three x y z hx hy hz hc px py pz hr hr2 =>
    simp only [ServiceSpec.getCount, hc, Option.getD_some] at hi
    have q0 : 0 ≤ i / x := Int.ediv_nonneg h0 (by omega)
    have hqle := Int.ediv_le_self x h0
    have q1 : i / x < y * z := ediv_lt_of px (by rw [← Int.mul_assoc]; exact hi)
    have z0 : 0 ≤ i / x / y := Int.ediv_nonneg q0 (by omega)
    have z1 : i / x / y < z := ediv_lt_of py q1
    have m0 := Int.emod_nonneg i (show x ≠ 0 by omega)
    have m1 := Int.emod_lt_of_pos i px
    have n0 := Int.emod_nonneg (i / x) (show y ≠ 0 by omega)
    have n1 := Int.emod_lt_of_pos (i / x) py
    have hde := decompose i x y
    have p1 : 0 ≤ i / x % y * x := Int.mul_nonneg n0 (by omega)
    have p2' : 0 ≤ i / x / y * x := Int.mul_nonneg z0 (by omega)
    have p2 : 0 ≤ i / x / y * x * y := Int.mul_nonneg p2' (by omega)
    have p3 : i / x / y * x ≤ i / x / y * x * y := by
      have := Int.mul_le_mul_of_nonneg_left (show (1 : Int) ≤ y by omega) p2'
      omega
    have hq : InI32 (i / x) := by unfold InI32 at *; omega
    refine ⟨⟨i % x, i / x % y, i / x / y⟩, ?_, ?_, ?_⟩
    · unfold getServiceIndex
      simp [hx, hy, hz, cmod_nonneg h0 hri px, cdiv_nonneg h0 hri px, cmod_nonneg q0 hq py,
        cdiv_nonneg q0 hq py]
    · simp [InGrid, hx, hy, hz, m0, m1, n0, n1, z0, z1]
    · unfold getInstanceFromGridIndex
      have c1 : InI32 (i / x % y * x) := by unfold InI32 at *; omega
      have c2 : InI32 (i % x + i / x % y * x) := by unfold InI32 at *; omega
      have c3 : InI32 (i / x / y * x) := by unfold InI32 at *; omega
      have c4 : InI32 (i / x / y * x * y) := by unfold InI32 at *; omega
      simp [ServiceSpec.getX, ServiceSpec.getY, hx, hy, chk32_of c1, chk32_of c2, chk32_of c3,
        chk32_of c4, hde, chk32_of hri]

/-- Recompose: the instance of an in-grid coordinate. -/
theorem instance_of_grid {s : ServiceSpec} (h : Canon s) {g : GridIndex} (hg : InGrid s g) :
    ∃ i, getInstanceFromGridIndex s g = some i ∧ 0 ≤ i ∧ i < s.getCount ∧
      getServiceIndex s i = some g := by
  obtain ⟨gx, gy, gz⟩ := g
  have key : ∃ i, getInstanceFromGridIndex s ⟨gx, gy, gz⟩ = some i ∧ 0 ≤ i ∧ i < s.getCount ∧
      ∀ g', InGrid s g' → getInstanceFromGridIndex s g' = some i → g' = ⟨gx, gy, gz⟩ := by
    cases h with
    | one x hx hy hz hc hr =>
      simp only [InGrid, hx, hy, hz, Option.getD_some, Option.getD_none] at hg
      have hy0 : gy = 0 := by omega
      have hz0 : gz = 0 := by omega
      subst hy0; subst hz0
      have c0 : InI32 gx := by unfold InI32 at *; omega
      have z0 : chk32 0 = some 0 := by decide
      refine ⟨gx, by simp [getInstanceFromGridIndex, z0, chk32_of c0], by omega, by omega, ?_⟩
      rintro ⟨a, b, c⟩ hg' h'
      simp only [InGrid, hx, hy, hz, Option.getD_some, Option.getD_none] at hg'
      have hb0 : b = 0 := by omega
      have hc0 : c = 0 := by omega
      subst hb0; subst hc0
      have c0 : InI32 a := by unfold InI32 at *; omega
      simp [getInstanceFromGridIndex, z0, chk32_of c0] at h'
      simp [h']
    | two x y hx hy hz hc px py hr =>
      simp only [InGrid, hx, hy, hz, Option.getD_some, Option.getD_none] at hg
      have hz0 : gz = 0 := by omega
      subst hz0
      have z0 : chk32 0 = some 0 := by decide
      have b1 : 0 ≤ gy * x := Int.mul_nonneg (by omega) (by omega)
      have b2 : gy * x + x ≤ x * y := by
        have : (gy + 1) * x ≤ y * x := Int.mul_le_mul_of_nonneg_right (by omega) (by omega)
        rw [Int.add_mul] at this
        rw [Int.mul_comm x y]
        omega
      have c1 : InI32 (gy * x) := by unfold InI32 at *; omega
      have c2 : InI32 (gx + gy * x) := by unfold InI32 at *; omega
      refine ⟨gx + gy * x, by simp [getInstanceFromGridIndex, ServiceSpec.getX, hx, z0,
        chk32_of c1, chk32_of c2], by omega, by simp [ServiceSpec.getCount, hc]; omega, ?_⟩
      rintro ⟨a, b, c⟩ hg' h'
      simp only [InGrid, hx, hy, hz, Option.getD_some, Option.getD_none] at hg'
      have hc0 : c = 0 := by omega
      subst hc0
      have b1' : 0 ≤ b * x := Int.mul_nonneg (by omega) (by omega)
      have b2' : b * x + x ≤ x * y := by
        have : (b + 1) * x ≤ y * x := Int.mul_le_mul_of_nonneg_right (by omega) (by omega)
        rw [Int.add_mul] at this
        rw [Int.mul_comm x y]
        omega
      have d1 : InI32 (b * x) := by unfold InI32 at *; omega
      have d2 : InI32 (a + b * x) := by unfold InI32 at *; omega
      simp [getInstanceFromGridIndex, ServiceSpec.getX, hx, z0, chk32_of d1, chk32_of d2] at h'
      have e1 : a = gx := by
        have h1 : (a + b * x) % x = (gx + gy * x) % x := by rw [h']
        rw [Int.add_mul_emod_self_right, Int.add_mul_emod_self_right,
          Int.emod_eq_of_lt (by omega) (by omega), Int.emod_eq_of_lt (by omega) (by omega)] at h1
        exact h1
      subst e1
      have e2 : b * x = gy * x := by omega
      have e3 : b = gy := Int.eq_of_mul_eq_mul_right (by omega) e2
      subst e3
      rfl
    | three x y z hx hy hz hc px py pz hr hr2 =>
      simp only [InGrid, hx, hy, hz, Option.getD_some, Option.getD_none] at hg
      have bnd : ∀ a b c : Int, 0 ≤ a → a < x → 0 ≤ b → b < y → 0 ≤ c → c < z →
          0 ≤ b * x ∧ 0 ≤ c * x ∧ c * x ≤ c * x * y ∧ a + b * x < x * y ∧
          a + b * x + c * x * y < x * y * z := by
        intro a b c ha hax hb hby hcc hcz
        have b1 : 0 ≤ b * x := Int.mul_nonneg hb (by omega)
        have b2 : (b + 1) * x ≤ y * x := Int.mul_le_mul_of_nonneg_right (by omega) (by omega)
        rw [Int.add_mul, Int.mul_comm y x] at b2
        have b3 : 0 ≤ c * x := Int.mul_nonneg hcc (by omega)
        have b4 : c * x ≤ c * x * y := by
          have := Int.mul_le_mul_of_nonneg_left (show (1 : Int) ≤ y by omega) b3
          omega
        have hxy : 0 ≤ x * y := Int.mul_nonneg (by omega) (by omega)
        have b5 : (c + 1) * (x * y) ≤ z * (x * y) := Int.mul_le_mul_of_nonneg_right (by omega) hxy
        rw [Int.add_mul, Int.mul_comm z (x * y), ← Int.mul_assoc c x y] at b5
        refine ⟨b1, b3, b4, by omega, by omega⟩
      have val : ∀ a b c : Int, 0 ≤ a → a < x → 0 ≤ b → b < y → 0 ≤ c → c < z →
          getInstanceFromGridIndex s ⟨a, b, c⟩ = some (a + b * x + c * x * y) := by
        intro a b c ha hax hb hby hcc hcz
        obtain ⟨b1, b2, b3, b4, b5⟩ := bnd a b c ha hax hb hby hcc hcz
        have c1 : InI32 (b * x) := by unfold InI32 at *; omega
        have c2 : InI32 (a + b * x) := by unfold InI32 at *; omega
        have c3 : InI32 (c * x) := by unfold InI32 at *; omega
        have c4 : InI32 (c * x * y) := by unfold InI32 at *; omega
        have c5 : InI32 (a + b * x + c * x * y) := by unfold InI32 at *; omega
        simp [getInstanceFromGridIndex, ServiceSpec.getX, ServiceSpec.getY, hx, hy, chk32_of c1,
          chk32_of c2, chk32_of c3, chk32_of c4, chk32_of c5]
      obtain ⟨b1, b2, b3, b4, b5⟩ := bnd gx gy gz (by omega) (by omega) (by omega) (by omega)
        (by omega) (by omega)
      refine ⟨gx + gy * x + gz * x * y, val gx gy gz (by omega) (by omega) (by omega) (by omega)
        (by omega) (by omega), by omega, by simp [ServiceSpec.getCount, hc]; omega, ?_⟩
      rintro ⟨a, b, c⟩ hg' h'
      simp only [InGrid, hx, hy, hz, Option.getD_some, Option.getD_none] at hg'
      rw [val a b c (by omega) (by omega) (by omega) (by omega) (by omega) (by omega)] at h'
      have h' := Option.some.inj h'
      have re : ∀ a b c : Int, a + b * x + c * x * y = a + (b + c * y) * x := by
        intro a b c
        rw [Int.add_mul, Int.mul_right_comm]
        omega
      rw [re, re] at h'
      have e1 : a = gx := by
        have h1 : (a + (b + c * y) * x) % x = (gx + (gy + gz * y) * x) % x := by rw [h']
        rw [Int.add_mul_emod_self_right, Int.add_mul_emod_self_right,
          Int.emod_eq_of_lt (by omega) (by omega), Int.emod_eq_of_lt (by omega) (by omega)] at h1
        exact h1
      subst e1
      have e2 : (b + c * y) * x = (gy + gz * y) * x := by omega
      have e3 : b + c * y = gy + gz * y := Int.eq_of_mul_eq_mul_right (by omega) e2
      have e4 : b = gy := by
        have h1 : (b + c * y) % y = (gy + gz * y) % y := by rw [e3]
        rw [Int.add_mul_emod_self_right, Int.add_mul_emod_self_right,
          Int.emod_eq_of_lt (by omega) (by omega), Int.emod_eq_of_lt (by omega) (by omega)] at h1
        exact h1
      subst e4
      have e5 : c = gz := Int.eq_of_mul_eq_mul_right (show y ≠ 0 by omega) (by omega)
      subst e5
      rfl
  obtain ⟨i, h1, h2, h3, h4⟩ := key
  obtain ⟨g', k1, k2, k3⟩ := getServiceIndex_spec h h2 h3
  exact ⟨i, h1, h2, h3, by rw [k1, h4 g' k2 k3]⟩

end Distbench.Services
