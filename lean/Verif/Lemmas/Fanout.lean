import Verif.Spec.Fanout
import Verif.Lemmas.Services

namespace Distbench.Fanout
open Services Spec

theorem mem_intRange {a b x : Int} : x ∈ intRange a b ↔ a ≤ x ∧ x < b := by
  unfold intRange
  rw [List.mem_map]
  constructor
  · rintro ⟨k, h1, h2⟩
    rw [List.mem_range] at h1
    omega
  · rintro ⟨h1, h2⟩
    exact ⟨(x - a).toNat, by rw [List.mem_range]; omega, by omega⟩

theorem pairwise_intRange (a b : Int) : (intRange a b).Pairwise (· < ·) := by
  unfold intRange
  rw [List.pairwise_map]
  refine List.Pairwise.imp ?_ List.pairwise_lt_range
  intro x y h
  omega

theorem nodup_intRange (a b : Int) : (intRange a b).Nodup :=
  (pairwise_intRange a b).imp (fun h => by omega)

theorem mapOpt_eq {α β : Type} {f : α → Option β} {g : α → β} {l : List α}
    (h : ∀ a ∈ l, f a = some (g a)) : mapOpt f l = some (l.map g) := by
  induction l with
  | nil => rfl
  | cons a l ih =>
    rw [mapOpt, h a (by simp), ih (fun x hx => h x (by simp [hx]))]
    rfl

/-- The instance number of a coordinate. -/
def cellNum (s : ServiceSpec) (g : GridIndex) : Int :=
  g.x + s.xSize.getD 1 * (g.y + s.ySize.getD 1 * g.z)

theorem getInstance_eq {s : ServiceSpec} {g : GridIndex} {t : Int}
    (h : getInstanceFromGridIndex s g = some t) : t = cellNum s g := by
  unfold getInstanceFromGridIndex at h
  simp only [Option.bind_eq_bind, Option.bind_eq_some_iff, chk32_eq_some] at h
  obtain ⟨a, ⟨_, rfl⟩, b, ⟨_, rfl⟩, c, ⟨_, rfl⟩, d, ⟨_, rfl⟩, _, rfl⟩ := h
  unfold cellNum
  show g.x + g.y * s.xSize.getD 1 + g.z * s.xSize.getD 1 * s.ySize.getD 1 = _
  rw [Int.mul_add, ← Int.mul_assoc, Int.mul_comm (g.y), Int.mul_comm (g.z), Int.mul_right_comm,
    Int.add_assoc]

theorem cellTarget_of_inGrid {s : ServiceSpec} (hc : Canon s) {g : GridIndex} (hg : InGrid s g) :
    cellTarget s g.x g.y g.z = some (cellNum s g) ∧ 0 ≤ cellNum s g ∧ cellNum s g < s.getCount := by
  obtain ⟨i, h1, h2, h3, _⟩ := instance_of_grid hc hg
  have := getInstance_eq h1
  subst this
  exact ⟨h1, h2, h3⟩

theorem cellNum_inj {s : ServiceSpec} (hc : Canon s) {g g' : GridIndex} (hg : InGrid s g)
    (hg' : InGrid s g') (h : cellNum s g = cellNum s g') : g = g' := by
  obtain ⟨i, h1, _, _, h4⟩ := instance_of_grid hc hg
  obtain ⟨i', k1, _, _, k4⟩ := instance_of_grid hc hg'
  have e : i = i' := by rw [getInstance_eq h1, getInstance_eq k1, h]
  subst e
  rw [h4] at k4
  exact Option.some.inj k4

theorem at_unique {s : ServiceSpec} (hc : Canon s) {g g' : GridIndex} {t : Int} (h : At s g t)
    (h' : At s g' t) : g = g' :=
  cellNum_inj hc h.1 h'.1 (h.2.symm.trans h'.2)

theorem at_bounds {s : ServiceSpec} (hc : Canon s) {g : GridIndex} {t : Int} (h : At s g t) :
    0 ≤ t ∧ t < s.getCount := by
  obtain ⟨_, h2, h3⟩ := cellTarget_of_inGrid hc h.1
  rw [h.2]
  exact ⟨h2, h3⟩

theorem exists_at {s : ServiceSpec} (hc : Canon s) {t : Int} (h0 : 0 ≤ t) (h1 : t < s.getCount) :
    ∃ g, At s g t := by
  obtain ⟨g, _, h2, h3⟩ := getServiceIndex_spec hc h0 h1
  exact ⟨g, h2, getInstance_eq h3⟩

/-- The instance numbers of the public API and of the specification agree. -/
theorem at_iff {s : ServiceSpec} (hc : Canon s) {t : Int} {g : GridIndex} :
    At s g t ↔ 0 ≤ t ∧ t < s.getCount ∧ getServiceIndex s t = some g := by
  constructor
  · intro h
    obtain ⟨i, h1, h2, h3, h4⟩ := instance_of_grid hc h.1
    have : i = t := by rw [getInstance_eq h1, h.2]; rfl
    subst this
    exact ⟨h2, h3, h4⟩
  · rintro ⟨h0, h1, h2⟩
    obtain ⟨g', k1, k2, k3⟩ := getServiceIndex_spec hc h0 h1
    rw [h2] at k1
    have := Option.some.inj k1
    subst this
    exact ⟨k2, getInstance_eq k3⟩

/-! grid cells -/

def cells (xs ys zs : List Int) : List (Int × Int × Int) :=
  xs.flatMap fun i => ys.flatMap fun j => zs.map fun k => (i, j, k)

theorem mem_cells {xs ys zs : List Int} {c : Int × Int × Int} :
    c ∈ cells xs ys zs ↔ c.1 ∈ xs ∧ c.2.1 ∈ ys ∧ c.2.2 ∈ zs := by
  obtain ⟨i, j, k⟩ := c
  unfold cells
  simp only [List.mem_flatMap, List.mem_map, Prod.mk.injEq]
  constructor
  · rintro ⟨a, h1, b, h2, d, h3, rfl, rfl, rfl⟩; exact ⟨h1, h2, h3⟩
  · rintro ⟨h1, h2, h3⟩; exact ⟨i, h1, j, h2, k, h3, rfl, rfl, rfl⟩

theorem nodup_cells {xs ys zs : List Int} (hx : xs.Nodup) (hy : ys.Nodup) (hz : zs.Nodup) :
    (cells xs ys zs).Nodup := by
  unfold cells List.Nodup
  rw [List.pairwise_flatMap]
  constructor
  · intro i _
    rw [List.pairwise_flatMap]
    constructor
    · intro j _
      rw [List.pairwise_map]
      exact hz.imp (fun h e => h (by simpa using e))
    · refine hy.imp ?_
      intro a b h x h1 y h2
      rw [List.mem_map] at h1 h2
      obtain ⟨_, _, rfl⟩ := h1
      obtain ⟨_, _, rfl⟩ := h2
      intro e
      exact h (by simpa using (Prod.mk.inj (Prod.mk.inj e).2).1)
  · refine hx.imp ?_
    intro a b h x h1 y h2
    simp only [List.mem_flatMap, List.mem_map] at h1 h2
    obtain ⟨_, _, _, _, rfl⟩ := h1
    obtain ⟨_, _, _, _, rfl⟩ := h2
    intro e
    exact h (Prod.mk.inj e).1

theorem nodup_map_on {α β : Type} {f : α → β} {l : List α} (hl : l.Nodup)
    (h : ∀ a ∈ l, ∀ b ∈ l, f a = f b → a = b) : (l.map f).Nodup := by
  induction l with
  | nil => simp
  | cons a l ih =>
    rw [List.nodup_cons] at hl
    rw [List.map_cons, List.nodup_cons]
    refine ⟨?_, ih hl.2 (fun x hx y hy => h x (by simp [hx]) y (by simp [hy]))⟩
    intro hm
    obtain ⟨b, hb, e⟩ := List.mem_map.1 hm
    have := h b (by simp [hb]) a (by simp) e
    subst this
    exact hl.1 hb

theorem grid_ranges {s : ServiceSpec} {self : GridIndex} {sx sy sz : Bool}
    (hs : (sx = true → 0 ≤ self.x ∧ self.x < s.xSize.getD 1) ∧
          (sy = true → 0 ≤ self.y ∧ self.y < s.ySize.getD 1) ∧
          (sz = true → 0 ≤ self.z ∧ self.z < s.zSize.getD 1)) (i j k : Int) :
    ((i, j, k) ∈ cells (if sx then intRange self.x (self.x + 1) else intRange 0 s.getX)
        (if sy then intRange self.y (self.y + 1) else intRange 0 s.getY)
        (if sz then intRange self.z (self.z + 1) else intRange 0 s.getZ)) ↔
      InGrid s ⟨i, j, k⟩ ∧ (sx = true → i = self.x) ∧ (sy = true → j = self.y) ∧
        (sz = true → k = self.z) := by
  rw [mem_cells]
  unfold InGrid
  have e1 : s.getX = s.xSize.getD 1 := rfl
  have e2 : s.getY = s.ySize.getD 1 := rfl
  have e3 : s.getZ = s.zSize.getD 1 := rfl
  rw [e1, e2, e3]
  revert hs
  generalize s.xSize.getD 1 = X, s.ySize.getD 1 = Y, s.zSize.getD 1 = Z
  intro hs
  cases sx <;> cases sy <;> cases sz <;> simp [mem_intRange] at hs ⊢ <;> omega

theorem pickGrid_spec {s : ServiceSpec} (hc : Canon s) {self : GridIndex} {sx sy sz : Bool}
    (hs : (sx = true → 0 ≤ self.x ∧ self.x < s.xSize.getD 1) ∧
          (sy = true → 0 ≤ self.y ∧ self.y < s.ySize.getD 1) ∧
          (sz = true → 0 ≤ self.z ∧ self.z < s.zSize.getD 1)) :
    ∃ ts, pickGridTargets sx sy sz self s = some ts ∧ ts.Nodup ∧
      ∀ t, t ∈ ts ↔ ∃ g, At s g t ∧ (sx = true → g.x = self.x) ∧ (sy = true → g.y = self.y) ∧
        (sz = true → g.z = self.z) := by
  have hm := grid_ranges (s := s) hs
  refine ⟨_, mapOpt_eq (g := fun c : Int × Int × Int => cellNum s ⟨c.1, c.2.1, c.2.2⟩) ?_, ?_, ?_⟩
  · intro c h
    exact (cellTarget_of_inGrid hc ((hm c.1 c.2.1 c.2.2).1 h).1).1
  · refine nodup_map_on (nodup_cells ?_ ?_ ?_) ?_
    · split <;> exact nodup_intRange _ _
    · split <;> exact nodup_intRange _ _
    · split <;> exact nodup_intRange _ _
    · rintro ⟨i, j, k⟩ h1 ⟨i', j', k'⟩ h2 e
      have := cellNum_inj hc ((hm _ _ _).1 h1).1 ((hm _ _ _).1 h2).1 e
      simp only [GridIndex.mk.injEq] at this
      simp [this]
  · intro t
    rw [List.mem_map]
    constructor
    · rintro ⟨⟨i, j, k⟩, h1, rfl⟩
      obtain ⟨h2, h3⟩ := (hm i j k).1 h1
      exact ⟨⟨i, j, k⟩, ⟨h2, rfl⟩, h3⟩
    · rintro ⟨⟨i, j, k⟩, ⟨h1, h2⟩, h3⟩
      exact ⟨(i, j, k), (hm i j k).2 ⟨h1, h3⟩, h2.symm⟩

/-! linear -/

theorem pickLinear_spec {s : ServiceSpec} (hc : Canon s) {self : GridIndex} {a : Axis} {d : Int}
    (h0 : 0 ≤ self.x ∧ 0 ≤ self.y ∧ 0 ≤ self.z) (hd : InI32 (coord a self + d)) :
    ∃ ts, pickLinearTargets a d self s = some ts ∧ ts.Nodup ∧
      ∀ t, t ∈ ts ↔ At s (setCoord a self (coord a self + d)) t := by
  have key : ∀ x y z : Int, ∃ ts,
      (if x < 0 ∨ y < 0 ∨ z < 0 then some []
        else if x ≥ s.getX ∨ y ≥ s.getY ∨ z ≥ s.getZ then some []
        else do
          let t ← cellTarget s x y z
          some [t]) = some ts ∧ ts.Nodup ∧ ∀ t, t ∈ ts ↔ At s ⟨x, y, z⟩ t := by
    intro x y z
    by_cases hg : InGrid s ⟨x, y, z⟩
    · have hg' := hg
      unfold InGrid at hg'
      simp only at hg'
      refine ⟨[cellNum s ⟨x, y, z⟩], ?_, by simp, ?_⟩
      · rw [if_neg (by omega), if_neg (by unfold ServiceSpec.getX ServiceSpec.getY ServiceSpec.getZ; omega),
          (cellTarget_of_inGrid hc hg).1]
        rfl
      · intro t
        rw [List.mem_singleton]
        exact ⟨fun h => ⟨hg, h⟩, fun h => h.2⟩
    · refine ⟨[], ?_, by simp, ?_⟩
      · unfold InGrid at hg
        simp only at hg
        by_cases h1 : x < 0 ∨ y < 0 ∨ z < 0
        · rw [if_pos h1]
        · rw [if_neg h1, if_pos]
          unfold ServiceSpec.getX ServiceSpec.getY ServiceSpec.getZ
          omega
      · intro t
        simp only [List.not_mem_nil, false_iff]
        exact fun h => hg h.1
  unfold pickLinearTargets
  cases a with
  | x =>
    simp only [coord] at hd
    simp only [↓reduceIte, reduceCtorEq, chk32_of hd, Option.bind_eq_bind, Option.bind_some]
    exact key _ _ _
  | y =>
    simp only [coord] at hd
    simp only [↓reduceIte, reduceCtorEq, chk32_of hd, Option.bind_eq_bind, Option.bind_some]
    exact key _ _ _
  | z =>
    simp only [coord] at hd
    simp only [↓reduceIte, reduceCtorEq, chk32_of hd, Option.bind_eq_bind, Option.bind_some]
    exact key _ _ _

/-! sorting -/

theorem insertBy_perm (key : Int → Int) (a : Int) (l : List Int) : (insertBy key a l).Perm (a :: l) := by
  induction l with
  | nil => exact List.Perm.refl _
  | cons b l ih =>
    rw [insertBy]
    split
    · exact (ih.cons b).trans (List.Perm.swap a b l)
    · exact List.Perm.refl _

theorem sortBy_perm (key : Int → Int) (l : List Int) : (sortBy key l).Perm l := by
  induction l with
  | nil => exact List.Perm.refl _
  | cons a l ih => exact (insertBy_perm key a _).trans (ih.cons a)

theorem insertBy_sorted {key : Int → Int} {a : Int} {l : List Int}
    (h : l.Pairwise (fun x y => key x ≤ key y)) :
    (insertBy key a l).Pairwise (fun x y => key x ≤ key y) := by
  induction l with
  | nil => simp [insertBy]
  | cons b l ih =>
    rw [List.pairwise_cons] at h
    rw [insertBy]
    split
    · rename_i hlt
      rw [List.pairwise_cons]
      refine ⟨?_, ih h.2⟩
      intro x hx
      rcases List.mem_cons.1 ((insertBy_perm key a l).mem_iff.1 hx) with rfl | hx
      · omega
      · exact h.1 x hx
    · rename_i hlt
      rw [List.pairwise_cons, List.pairwise_cons]
      refine ⟨?_, h⟩
      intro x hx
      rcases List.mem_cons.1 hx with rfl | hx
      · omega
      · have := h.1 x hx; omega

theorem sortBy_sorted (key : Int → Int) (l : List Int) :
    (sortBy key l).Pairwise (fun x y => key x ≤ key y) := by
  induction l with
  | nil => simp [sortBy]
  | cons a l ih => exact insertBy_sorted ih

/-- Two lists with the same elements, both increasing in a key, are equal. -/
theorem eq_of_sorted {key : Int → Int} {l l' : List Int} (hl : l.Pairwise (fun x y => key x < key y))
    (hl' : l'.Pairwise (fun x y => key x < key y)) (h : ∀ x, x ∈ l ↔ x ∈ l') : l = l' := by
  induction l generalizing l' with
  | nil =>
    cases l' with
    | nil => rfl
    | cons a l' => exact absurd ((h a).2 (by simp)) (by simp)
  | cons a l ih =>
    cases l' with
    | nil => exact absurd ((h a).1 (by simp)) (by simp)
    | cons b l' =>
      rw [List.pairwise_cons] at hl hl'
      have hab : a = b := by
        rcases List.mem_cons.1 ((h a).1 (by simp)) with e | e
        · exact e
        · rcases List.mem_cons.1 ((h b).2 (by simp)) with e' | e'
          · exact e'.symm
          · have h1 := hl.1 b e'
            have h2 := hl'.1 a e
            omega
      subst hab
      congr 1
      refine ih hl.2 hl'.2 ?_
      intro x
      constructor
      · intro hx
        rcases List.mem_cons.1 ((h x).1 (by simp [hx])) with e | e
        · subst e; exact absurd (hl.1 x hx) (by omega)
        · exact e
      · intro hx
        rcases List.mem_cons.1 ((h x).2 (by simp [hx])) with e | e
        · subst e; exact absurd (hl'.1 x hx) (by omega)
        · exact e

/-! post-processing -/

/-- The final list is a permutation of the raw targets without the sender. -/
theorem pick_perm {c : Ctx} (hv : Valid c) (h1 : ¬ (c.excludeSelf = true ∧ c.numServers = 1))
    {raw : List Int} (hr : rawTargets c = some raw) :
    ∃ ts, pickRpcFanoutTargets c = some ts ∧
      ts.Perm (if c.excludeSelf then eraseValue c.instance_ raw else raw) := by
  unfold pickRpcFanoutTargets
  rw [if_neg h1, hr]
  simp only
  by_cases hs : c.parsed.filter = .stochastic
  · rw [if_pos hs]; exact ⟨_, rfl, List.Perm.refl _⟩
  · rw [if_neg hs]
    by_cases he : c.excludeSelf = true
    · rw [if_pos he, if_pos he]; exact ⟨_, rfl, sortBy_perm _ _⟩
    · rw [if_neg he, if_neg he]; exact ⟨_, rfl, hv.shuffle _⟩

theorem mem_eraseValue {v t : Int} {l : List Int} : t ∈ eraseValue v l ↔ t ∈ l ∧ t ≠ v := by
  unfold eraseValue
  rw [List.mem_filter]
  simp

theorem nodup_eraseValue {v : Int} {l : List Int} (h : l.Nodup) : (eraseValue v l).Nodup := by
  unfold eraseValue
  exact List.Pairwise.sublist List.filter_sublist h

/-- Membership and duplicates of the final list in terms of the raw targets. -/
theorem pick_mem {c : Ctx} (hv : Valid c) {raw : List Int} (hr : rawTargets c = some raw)
    (hraw : ∀ t ∈ raw, 0 ≤ t ∧ t < c.numServers) :
    ∃ ts, pickRpcFanoutTargets c = some ts ∧ (raw.Nodup → ts.Nodup) ∧
      ∀ t, t ∈ ts ↔ t ∈ raw ∧ (c.excludeSelf = true → t ≠ c.instance_) := by
  by_cases h1 : c.excludeSelf = true ∧ c.numServers = 1
  · refine ⟨[], ?_, by simp, ?_⟩
    · unfold pickRpcFanoutTargets
      rw [if_pos h1]
    · intro t
      simp only [List.not_mem_nil, false_iff]
      rintro ⟨h2, h3⟩
      have h4 := hraw t h2
      obtain ⟨raw', hf, hcan⟩ := hv.accepted
      have h5 := at_bounds (canon_of_ok hf hcan) (hv.self_in h1.1)
      have h6 := hv.count
      have h7 : c.peer.getCount = c.peer.count.getD 0 := rfl
      exact h3 h1.1 (by omega)
  · obtain ⟨ts, h2, h3⟩ := pick_perm hv h1 hr
    refine ⟨ts, h2, ?_, ?_⟩
    · intro hn
      rw [h3.nodup_iff]
      split
      · exact nodup_eraseValue hn
      · exact hn
    · intro t
      rw [h3.mem_iff]
      by_cases he : c.excludeSelf = true
      · rw [if_pos he, mem_eraseValue]; simp [he]
      · rw [if_neg he]; simp [he]

/-! ring -/

theorem extents_pos {s : ServiceSpec} (hc : Canon s) (h : 1 ≤ s.getCount) :
    1 ≤ s.xSize.getD 1 ∧ 1 ≤ s.ySize.getD 1 ∧ 1 ≤ s.zSize.getD 1 := by
  cases hc with
  | one x hx hy hz hc hr => simp [hx, hy, hz]; omega
  | two x y hx hy hz hc px py hr => simp [hx, hy, hz]; omega
  | three x y z hx hy hz hc px py pz hr hr2 => simp [hx, hy, hz]; omega

theorem ringCoord {a n off : Int} (ha : 0 ≤ a) (ha' : a < 2 ^ 30) (hn : 1 ≤ n) (hn' : n < 2 ^ 30)
    (ho : off = -1 ∨ off = 0 ∨ off = 1) :
    InI32 (a + n) ∧ InI32 (a + n + off) ∧ cmod (a + n + off) n = some ((a + off) % n) := by
  have h1 : InI32 (a + n + off) := by unfold InI32; omega
  refine ⟨by unfold InI32; omega, h1, ?_⟩
  rw [cmod_nonneg (by omega) h1 (by omega)]
  congr 1
  rw [show a + n + off = a + off + n by omega, Int.add_emod_right]

theorem ringOffset_cases (alt : Bool) (a : Axis) (g : GridIndex) :
    ringOffset alt a g = -1 ∨ ringOffset alt a g = 0 ∨ ringOffset alt a g = 1 := by
  unfold ringOffset
  cases alt <;> cases a <;> simp <;> split <;> simp

theorem pickRing_spec {s : ServiceSpec} (hc : Canon s) (hcount : 1 ≤ s.getCount)
    (hm : ModerateSize s) {self : GridIndex} {alt : Bool} {a : Axis}
    (h0 : 0 ≤ self.x ∧ 0 ≤ self.y ∧ 0 ≤ self.z)
    (h1 : self.x < 2 ^ 30 ∧ self.y < 2 ^ 30 ∧ self.z < 2 ^ 30) :
    ∃ t, pickRingTargets alt a self s = some [t] ∧
      At s (setCoord a ⟨self.x % s.xSize.getD 1, self.y % s.ySize.getD 1, self.z % s.zSize.getD 1⟩
        ((coord a self + ringOffset alt a self) % extent a s)) t := by
  obtain ⟨px, py, pz⟩ := extents_pos hc hcount
  obtain ⟨mx, my, mz⟩ := hm
  have ho := ringOffset_cases alt a self
  have X := fun off => ringCoord (off := off) h0.1 h1.1 px mx
  have Y := fun off => ringCoord (off := off) h0.2.1 h1.2.1 py my
  have Z := fun off => ringCoord (off := off) h0.2.2 h1.2.2 pz mz
  have X0 := X 0 (by omega)
  have Y0 := Y 0 (by omega)
  have Z0 := Z 0 (by omega)
  simp only [Int.add_zero] at X0 Y0 Z0
  have hX : s.getX = s.xSize.getD 1 := rfl
  have hY : s.getY = s.ySize.getD 1 := rfl
  have hZ : s.getZ = s.zSize.getD 1 := rfl
  have fin : ∀ x y z : Int, InGrid s ⟨x, y, z⟩ →
      (do let t ← cellTarget s x y z; some [t]) = some [cellNum s ⟨x, y, z⟩] := by
    intro x y z hg
    rw [(cellTarget_of_inGrid hc hg).1]; rfl
  unfold pickRingTargets
  simp only [hX, hY, hZ, chk32_of X0.1, chk32_of Y0.1, chk32_of Z0.1, Option.bind_eq_bind,
    Option.bind_some]
  have bnd : ∀ u n : Int, 1 ≤ n → 0 ≤ u % n ∧ u % n < n := fun u n hn =>
    ⟨Int.emod_nonneg _ (by omega), Int.emod_lt_of_pos _ (by omega)⟩
  generalize ringOffset alt a self = off at ho ⊢
  cases a with
  | x =>
    have hX := X off ho
    have hg : InGrid s ⟨(self.x + off) % s.xSize.getD 1, self.y % s.ySize.getD 1,
        self.z % s.zSize.getD 1⟩ := by
      have := bnd (self.x + off) _ px; have := bnd self.y _ py; have := bnd self.z _ pz
      unfold InGrid; simp only; omega
    simp only [↓reduceIte, reduceCtorEq, chk32_of hX.2.1, Option.bind_some, hX.2.2, Y0.2.2, Z0.2.2]
    exact ⟨_, fin _ _ _ hg, hg, rfl⟩
  | y =>
    have hY := Y off ho
    have hg : InGrid s ⟨self.x % s.xSize.getD 1, (self.y + off) % s.ySize.getD 1,
        self.z % s.zSize.getD 1⟩ := by
      have := bnd self.x _ px; have := bnd (self.y + off) _ py; have := bnd self.z _ pz
      unfold InGrid; simp only; omega
    simp only [↓reduceIte, reduceCtorEq, chk32_of hY.2.1, Option.bind_some, hY.2.2, X0.2.2, Z0.2.2]
    exact ⟨_, fin _ _ _ hg, hg, rfl⟩
  | z =>
    have hZ := Z off ho
    have hg : InGrid s ⟨self.x % s.xSize.getD 1, self.y % s.ySize.getD 1,
        (self.z + off) % s.zSize.getD 1⟩ := by
      have := bnd self.x _ px; have := bnd self.y _ py; have := bnd (self.z + off) _ pz
      unfold InGrid; simp only; omega
    simp only [↓reduceIte, reduceCtorEq, chk32_of hZ.2.1, Option.bind_some, hZ.2.2, X0.2.2, Y0.2.2]
    exact ⟨_, fin _ _ _ hg, hg, rfl⟩

/-! single targets -/

/-- The translation of a draw below `n - 1` to an instance other than `i`. -/
def skip (n i v : Int) : Int := if v = i then n - 1 else v

theorem skip_spec {n i v : Int} (hi : 0 ≤ i) (hin : i < n) (hv : 0 ≤ v) (hvn : v < n - 1) :
    0 ≤ skip n i v ∧ skip n i v < n ∧ skip n i v ≠ i := by
  unfold skip; split <;> omega

theorem skip_inj {n i v w : Int} (hvn : v < n - 1) (hwn : w < n - 1)
    (h : skip n i v = skip n i w) : v = w := by
  unfold skip at h; split at h <;> split at h <;> omega

theorem skip_surj {n i t : Int} (hi : 0 ≤ i) (ht : 0 ≤ t) (htn : t < n) (hti : t ≠ i)
    (hin : i < n) : ∃ v, 0 ≤ v ∧ v < n - 1 ∧ skip n i v = t := by
  by_cases h : t = n - 1
  · exact ⟨i, by omega, by omega, by unfold skip; rw [if_pos rfl]; omega⟩
  · exact ⟨t, by omega, by omega, by unfold skip; rw [if_neg hti]⟩

theorem eraseValue_singleton {t v : Int} (h : t ≠ v) : eraseValue v [t] = [t] := by
  unfold eraseValue; simp [h]

theorem perm_singleton' {l : List Int} {t : Int} (h : l.Perm [t]) : l = [t] :=
  List.perm_singleton.1 h

/-- A single raw target that is eligible is the result. -/
theorem pick_single {c : Ctx} (hv : Valid c) (h1 : ¬ (c.excludeSelf = true ∧ c.numServers = 1))
    {t : Int} (hr : rawTargets c = some [t]) (ht : c.excludeSelf = true → t ≠ c.instance_) :
    pickRpcFanoutTargets c = some [t] := by
  obtain ⟨ts, h2, h3⟩ := pick_perm hv h1 hr
  have : (if c.excludeSelf then eraseValue c.instance_ [t] else [t]) = [t] := by
    split
    · rename_i he; exact eraseValue_singleton (ht he)
    · rfl
  rw [this] at h3
  rw [h2, perm_singleton' h3]

theorem window_inj {s m j j' : Int} (hj : 0 ≤ j) (hjm : j < m) (hj' : 0 ≤ j') (hjm' : j' < m)
    (h : (s + j) % m = (s + j') % m) : j = j' := by
  have h1 : (s + j - (s + j')) % m = 0 := Int.emod_eq_emod_iff_emod_sub_eq_zero.1 h
  rw [show s + j - (s + j') = j - j' by omega] at h1
  have h2 := Int.dvd_of_emod_eq_zero h1
  have h3 := Int.eq_zero_of_dvd_of_natAbs_lt_natAbs h2 (by omega)
  omega

theorem window_surj {s m v : Int} (hv : 0 ≤ v) (hvm : v < m) :
    ∃ j, 0 ≤ j ∧ j < m ∧ (s + j) % m = v := by
  refine ⟨(v - s) % m, Int.emod_nonneg _ (by omega), Int.emod_lt_of_pos _ (by omega), ?_⟩
  rw [Int.add_emod_emod, show s + (v - s) = v by omega, Int.emod_eq_of_lt hv hvm]

end Distbench.Fanout
