import Verif.Spec.Distribution

namespace Distbench.Dist
open Spec

theorem validateCdfLoop_iff (prev : Rat × Int) (rest : List (Rat × Int)) (l : CdfPoint) :
    validateCdfLoop (cdfPoint prev) (rest.map cdfPoint) = .ok l ↔
      (prev :: rest).Pairwise (fun a b => a.2 < b.2 ∧ a.1 ≤ b.1) ∧
      l = cdfPoint ((prev :: rest).getLast (by simp)) := by
  induction rest generalizing prev with
  | nil => simp [validateCdfLoop, eq_comm]
  | cons p rest ih =>
    rw [List.map_cons, validateCdfLoop]
    simp only [cdfPoint, F.lt, decide_eq_true_eq]
    simp only [cdfPoint] at ih
    by_cases h1 : p.2 ≤ prev.2
    · rw [if_pos h1]
      constructor
      · intro h; cases h
      · rintro ⟨h, _⟩
        have := ((List.pairwise_cons.1 h).1 p (by simp)).1
        omega
    · rw [if_neg h1]
      by_cases h2 : p.1 < prev.1
      · rw [if_pos h2]
        constructor
        · intro h; cases h
        · rintro ⟨h, _⟩
          have := ((List.pairwise_cons.1 h).1 p (by simp)).2
          grind
      · rw [if_neg h2]
        refine (ih p).trans ?_
        rw [List.pairwise_cons (a := prev)]
        constructor
        · rintro ⟨hp, hl⟩
          refine ⟨⟨?_, hp⟩, by simp only [hl, List.getLast_cons (a := prev) (List.cons_ne_nil p rest)]⟩
          intro b hb
          rcases List.mem_cons.1 hb with rfl | hb
          · exact ⟨by omega, by grind⟩
          · have := (List.pairwise_cons.1 hp).1 b hb
            exact ⟨by omega, by grind⟩
        · rintro ⟨⟨_, hp⟩, hl⟩
          exact ⟨hp, by simp only [hl, List.getLast_cons (a := prev) (List.cons_ne_nil p rest)]⟩

theorem validateCdfLoop_err (prev : CdfPoint) (rest : List CdfPoint) :
    (∃ l, validateCdfLoop prev rest = .ok l) ∨ ∃ m, validateCdfLoop prev rest = .error m := by
  induction rest generalizing prev with
  | nil => exact Or.inl ⟨_, rfl⟩
  | cons p rest ih =>
    rw [validateCdfLoop]
    split
    · exact Or.inr ⟨_, rfl⟩
    · split
      · exact Or.inr ⟨_, rfl⟩
      · exact ih p

theorem validateCdf_iff (c : Config) (pts : List (Rat × Int)) (hc : c.cdfPoints = pts.map cdfPoint)
    (hne : pts ≠ []) : validateCdf c = .ok () ↔ ValidCdf pts := by
  unfold validateCdf ValidCdf
  cases pts with
  | nil => exact absurd rfl hne
  | cons p rest =>
    rw [hc, List.map_cons]
    simp only [List.head?_cons, Option.mem_def, Option.some.injEq, forall_eq']
    by_cases h0 : p.1 < 0
    · rw [if_pos (by simp [F.lt, cdfPoint, h0])]
      constructor
      · intro h; cases h
      · rintro ⟨_, _, h, _⟩; grind
    · rw [if_neg (by simp [F.lt, cdfPoint, h0])]
      have hl : (p :: rest).getLast? = some ((p :: rest).getLast (by simp)) :=
        List.getLast?_eq_some_getLast (by simp)
      rw [hl]
      simp only [Option.some.injEq, forall_eq']
      by_cases hp : (p :: rest).Pairwise (fun a b => a.2 < b.2 ∧ a.1 ≤ b.1)
      · rw [(validateCdfLoop_iff p rest _).2 ⟨hp, rfl⟩]
        simp only [F.eq, cdfPoint, decide_eq_true_eq]
        generalize ((p :: rest).getLast (List.cons_ne_nil p rest)).1 = q
        by_cases h1 : q = 1
        · simp only [h1, if_true, true_iff]
          exact ⟨by simp, hp, by grind, trivial⟩
        · simp [h1]
      · constructor
        · intro h
          rcases validateCdfLoop_err (cdfPoint p) (rest.map cdfPoint) with ⟨l, hl⟩ | ⟨m, hm⟩
          · exact absurd ((validateCdfLoop_iff p rest l).1 hl).1 hp
          · rw [hm] at h; cases h
        · rintro ⟨_, h, _⟩; exact absurd h hp

theorem repeatsName_iff (seen l : List Str) :
    repeatsName seen l = false ↔ l.Nodup ∧ ∀ n ∈ l, n ∉ seen := by
  induction l generalizing seen with
  | nil => simp [repeatsName]
  | cons n l ih =>
    rw [repeatsName]
    by_cases h : n ∈ seen
    · simp [h]
    · rw [if_neg h, ih, List.nodup_cons]
      constructor
      · rintro ⟨h1, h2⟩
        refine ⟨⟨fun hn => h2 n hn (by simp), h1⟩, ?_⟩
        intro m hm
        rcases List.mem_cons.1 hm with rfl | hm
        · exact h
        · exact fun hs => h2 m hm (by simp [hs])
      · rintro ⟨⟨h1, h2⟩, h3⟩
        refine ⟨h2, fun m hm => ?_⟩
        rw [List.mem_cons]
        rintro (rfl | hs)
        · exact h1 hm
        · exact h3 m (by simp [hm]) hs

theorem repeatsName_nodup (l : List Str) : repeatsName [] l = false ↔ l.Nodup := by
  rw [repeatsName_iff]; simp

/-- The PMF loop succeeds exactly when all points have the right dimension. -/
theorem validatePmfLoop_iff (rnd : Rat → Rat) (hn : Bool) (d : Nat) (ps : List PmfPoint) (acc r : F) :
    validatePmfLoop rnd hn d ps acc = .ok r ↔
      (∀ p ∈ ps, p.dataPoints.length = d) ∧ r = ps.foldl (fun a p => F.add rnd a p.pmf) acc := by
  induction ps generalizing acc with
  | nil => simp [validatePmfLoop, eq_comm]
  | cons p ps ih =>
    rw [validatePmfLoop]
    by_cases h : p.dataPoints.length = d
    · rw [if_neg (by simpa using h), ih]
      simp [h]
    · rw [if_pos h]
      constructor
      · intro h'; split at h' <;> cases h'
      · rintro ⟨h', _⟩; exact absurd (h' p (by simp)) h

theorem validatePmfLoop_err (rnd : Rat → Rat) (hn : Bool) (d : Nat) (ps : List PmfPoint) (acc : F) :
    (∃ l, validatePmfLoop rnd hn d ps acc = .ok l) ∨
      ∃ m, validatePmfLoop rnd hn d ps acc = .error m := by
  induction ps generalizing acc with
  | nil => exact Or.inl ⟨_, rfl⟩
  | cons p rest ih =>
    rw [validatePmfLoop]
    split
    · split
      · exact Or.inr ⟨_, rfl⟩
      · exact Or.inr ⟨_, rfl⟩
    · exact ih _

theorem fold_num (rnd : Rat → Rat) (ps : List PmfPoint) (qs : List Rat)
    (h : ps.map (·.pmf) = qs.map F.num) (a : Rat) :
    ps.foldl (fun a p => F.add rnd a p.pmf) (.num a)
      = .num (qs.foldl (fun acc q => rnd (acc + q)) a) := by
  induction ps generalizing qs a with
  | nil =>
    cases qs with
    | nil => rfl
    | cons q qs => simp at h
  | cons p ps ih =>
    cases qs with
    | nil => simp at h
    | cons q qs =>
      simp only [List.map_cons, List.cons.injEq] at h
      simp only [List.foldl_cons, h.1, F.add]
      exact ih qs h.2 _

/-- Dimension used by `ValidatePmfConfig`. -/
theorem validatePmf_iff (rnd : Rat → Rat) (c : Config) (qs : List Rat)
    (hq : c.pmfPoints.map (·.pmf) = qs.map F.num) (hne : c.pmfPoints ≠ []) :
    validatePmf rnd c = .ok () ↔
      (∃ d, (c.fieldNames ≠ [] → d = c.fieldNames.length) ∧
        ∀ p ∈ c.pmfPoints, p.dataPoints.length = d) ∧
      ¬ (roundedSum rnd qs - 1 > 1 / 1000000) ∧ ¬ (1 - roundedSum rnd qs > 1 / 1000000) := by
  unfold validatePmf
  cases hp : c.pmfPoints with
  | nil => exact absurd hp hne
  | cons p0 ps =>
    simp only
    rw [← hp]
    have hdim : (∃ d, (c.fieldNames ≠ [] → d = c.fieldNames.length) ∧
        ∀ p ∈ c.pmfPoints, p.dataPoints.length = d) ↔
        ∀ p ∈ c.pmfPoints, p.dataPoints.length
          = if c.fieldNames.length = 0 then p0.dataPoints.length else c.fieldNames.length := by
      constructor
      · rintro ⟨d, h1, h2⟩ p hpm
        rw [h2 p hpm]
        split
        · rw [h2 p0 (by rw [hp]; simp)]
        · rename_i hf
          exact h1 (by intro h; rw [h] at hf; exact hf rfl)
      · intro h
        refine ⟨_, ?_, h⟩
        intro hf
        rw [if_neg]
        intro h0
        exact hf (List.eq_nil_of_length_eq_zero h0)
    rw [hdim]
    generalize (if c.fieldNames.length = 0 then p0.dataPoints.length else c.fieldNames.length) = d
    generalize decide (c.fieldNames.length ≠ 0) = b
    rcases validatePmfLoop_err rnd b d c.pmfPoints (.num 0) with ⟨l, hl⟩ | ⟨m, hm⟩
    · have := (validatePmfLoop_iff rnd b d c.pmfPoints (.num 0) l).1 hl
      rw [hl]
      simp only
      rw [this.2, fold_num rnd _ _ hq]
      unfold F.farFromOne
      simp only [Bool.or_eq_true, decide_eq_true_eq]
      unfold roundedSum
      constructor
      · intro h
        split at h
        · cases h
        · rename_i hn
          rw [not_or] at hn
          exact ⟨this.1, hn.1, hn.2⟩
      · rintro ⟨_, h1, h2⟩
        rw [if_neg (by rw [not_or]; exact ⟨h1, h2⟩)]
    · rw [hm]
      constructor
      · intro h; cases h
      · rintro ⟨h, _⟩
        have := (validatePmfLoop_iff rnd b d c.pmfPoints (.num 0) _).2 ⟨h, rfl⟩
        rw [this] at hm
        cases hm

/-! #### CDF conversion -/

theorem exactPoints_spec (d : Nat) (pts : List (Rat × Int)) (prev : Rat) :
    (exactPoints id d (pts.map cdfPoint) (.num prev)).length = pts.length ∧
    (∀ k (hk : k < pts.length),
      ((exactPoints id d (pts.map cdfPoint) (.num prev))[k]?).map (·.dataPoints)
        = some (List.replicate d { exact := some pts[k].2 })) ∧
    ∃ ms : List Rat, (exactPoints id d (pts.map cdfPoint) (.num prev)).map (·.pmf) = ms.map F.num ∧
      ms.length = pts.length ∧
      ∀ k (hk : k < pts.length), (ms.take (k + 1)).sum = pts[k].1 - prev := by
  induction pts generalizing prev with
  | nil => exact ⟨rfl, by simp, [], rfl, rfl, by simp⟩
  | cons p pts ih =>
    obtain ⟨h0, h1, ms, h2, h3, h4⟩ := ih p.1
    refine ⟨by simp [exactPoints, cdfPoint] at h0 ⊢; exact h0, ?_, (p.1 - prev) :: ms, ?_, by simp [h3], ?_⟩
    · intro k hk
      cases k with
      | zero => simp [exactPoints, cdfPoint]
      | succ k =>
        have := h1 k (by simpa using hk)
        simp only [List.map_cons, exactPoints, List.getElem?_cons_succ, List.getElem_cons_succ]
        exact this
    · simp only [List.map_cons, exactPoints, List.cons.injEq]
      exact ⟨rfl, h2⟩
    · intro k hk
      cases k with
      | zero => simp only [Nat.zero_add, List.take_succ_cons, List.take_zero, List.sum_cons,
          List.sum_nil, List.getElem_cons_zero]; grind
      | succ k =>
        have := h4 k (by simpa using hk)
        simp only [List.take_succ_cons, List.sum_cons, List.getElem_cons_succ] at this ⊢
        grind

/-- Lower bound of the k-th interval. -/
def lowerOf (v0 : Int) (rest : List (Rat × Int)) : Nat → Int
  | 0 => v0
  | k + 1 => match rest[k]? with | some p => p.2 + 1 | none => 0

theorem uniformPoints_spec (d : Nat) (rest : List (Rat × Int)) (prev : Rat) (v0 : Int)
    (ps : List PmfPoint) (h : uniformPoints id d (rest.map cdfPoint) (.num prev) v0 = some ps) :
    ps.length = rest.length ∧
    (∀ k (hk : k < rest.length),
      (ps[k]?).map (·.dataPoints)
        = some (List.replicate d { lower := some (lowerOf v0 rest k), upper := some rest[k].2 })) ∧
    ∃ ms : List Rat, ps.map (·.pmf) = ms.map F.num ∧ ms.length = rest.length ∧
      ∀ k (hk : k < rest.length), (ms.take (k + 1)).sum = rest[k].1 - prev := by
  induction rest generalizing prev v0 ps with
  | nil =>
    simp only [List.map_nil, uniformPoints, Option.some.injEq] at h
    subst h
    exact ⟨rfl, by simp, [], rfl, rfl, by simp⟩
  | cons p rest ih =>
    rw [List.map_cons, uniformPoints] at h
    split at h
    · rw [Option.map_eq_some_iff] at h
      obtain ⟨qs, hq, rfl⟩ := h
      obtain ⟨h0, h1, ms, h2, h3, h4⟩ := ih p.1 (p.2 + 1) qs hq
      refine ⟨by simp [h0], ?_, (p.1 - prev) :: ms, ?_, by simp [h3], ?_⟩
      · intro k hk
        cases k with
        | zero => simp [lowerOf, cdfPoint]
        | succ k =>
          have := h1 k (by simpa using hk)
          simp only [List.getElem?_cons_succ, List.getElem_cons_succ]
          rw [this]
          have hlow : lowerOf (p.2 + 1) rest k = lowerOf v0 (p :: rest) (k + 1) := by
            cases k with
            | zero => simp [lowerOf]
            | succ k => simp [lowerOf]
          rw [hlow]
      · simp only [List.map_cons, List.cons.injEq]
        exact ⟨rfl, h2⟩
      · intro k hk
        cases k with
        | zero => simp only [Nat.zero_add, List.take_succ_cons, List.take_zero, List.sum_cons,
            List.sum_nil, List.getElem_cons_zero]; grind
        | succ k =>
          have := h4 k (by simpa using hk)
          simp only [List.take_succ_cons, List.sum_cons, List.getElem_cons_succ] at this ⊢
          grind
    · cases h

theorem uniformPoints_some (rnd : Rat → Rat) (d : Nat) (pts : List CdfPoint) (prev : F) (v0 : Int) :
    (∃ ps, uniformPoints rnd d pts prev v0 = some ps) ↔ ∀ p ∈ pts, InI64 (p.value + 1) := by
  induction pts generalizing prev v0 with
  | nil => simp [uniformPoints]
  | cons p pts ih =>
    rw [uniformPoints]
    by_cases h : InI64 (p.value + 1)
    · rw [if_pos h]
      simp only [Option.map_eq_some_iff, List.forall_mem_cons]
      constructor
      · rintro ⟨ps, a, ha, _⟩; exact ⟨h, (ih _ _).1 ⟨a, ha⟩⟩
      · rintro ⟨_, hr⟩
        obtain ⟨a, ha⟩ := (ih p.cdf (p.value + 1)).2 hr
        exact ⟨_, a, ha, rfl⟩
    · rw [if_neg h]
      simp [h]

/-- Consecutive prefix sums that never decrease mean every term is non-negative. -/
theorem masses_nonneg (ms cs : List Rat) (prev : Rat) (hlen : ms.length = cs.length)
    (hsum : ∀ k (hk : k < cs.length), (ms.take (k + 1)).sum = cs[k] - prev)
    (hmono : (prev :: cs).Pairwise (· ≤ ·)) : ∀ m ∈ ms, 0 ≤ m := by
  induction ms generalizing cs prev with
  | nil => simp
  | cons m ms ih =>
    cases cs with
    | nil => simp at hlen
    | cons c cs =>
      have h0 := hsum 0 (by simp)
      simp only [Nat.zero_add, List.take_succ_cons, List.take_zero, List.sum_cons, List.sum_nil,
        List.getElem_cons_zero] at h0
      rw [List.pairwise_cons] at hmono
      have hpc := hmono.1 c (by simp)
      intro x hx
      rcases List.mem_cons.1 hx with rfl | hx
      · grind
      · refine ih cs c (by simpa using hlen) ?_ hmono.2 x hx
        intro k hk
        have := hsum (k + 1) (by simpa using hk)
        simp only [List.take_succ_cons, List.sum_cons, List.getElem_cons_succ] at this
        grind

/-! #### field reordering -/

theorem lastIndex_aux (names : List Str) (f : Str) (n : Nat) :
    (∀ j, (List.range n).foldl
        (fun found j => if names[j]? = some f then some j else found) none = some j →
        names[j]? = some f) ∧
    ((List.range n).foldl
        (fun found j => if names[j]? = some f then some j else found) none = none →
        ∀ j, j < n → names[j]? ≠ some f) := by
  induction n with
  | zero => simp
  | succ n ih =>
    rw [List.range_succ, List.foldl_append]
    simp only [List.foldl_cons, List.foldl_nil]
    by_cases h : names[n]? = some f
    · rw [if_pos h]
      constructor
      · intro j hj; rw [← Option.some.inj hj]; exact h
      · intro h'; cases h'
    · rw [if_neg h]
      refine ⟨ih.1, ?_⟩
      intro hn j hj
      by_cases hjn : j = n
      · subst hjn; exact h
      · exact ih.2 hn j (by omega)

theorem lastIndexOf_some {names : List Str} {f : Str} {j : Nat} (h : lastIndexOf names f = some j) :
    names[j]? = some f := (lastIndex_aux names f _).1 j h

theorem lastIndexOf_none {names : List Str} {f : Str} : lastIndexOf names f = none ↔ f ∉ names := by
  constructor
  · intro h hm
    obtain ⟨j, hj, he⟩ := List.mem_iff_getElem.1 hm
    exact (lastIndex_aux names f _).2 h j hj (by rw [List.getElem?_eq_getElem hj, he])
  · intro h
    cases hl : lastIndexOf names f with
    | none => rfl
    | some j => exact absurd (List.mem_of_getElem? (lastIndexOf_some hl)) h

theorem canonicalFromProto_none {names fields : List Str} :
    canonicalFromProto names fields = none ↔ ∃ f ∈ fields, f ∉ names := by
  induction fields with
  | nil => simp [canonicalFromProto]
  | cons f fields ih =>
    rw [canonicalFromProto]
    cases h : lastIndexOf names f with
    | none => simp [lastIndexOf_none.1 h]
    | some j =>
      have : f ∈ names := List.mem_of_getElem? (lastIndexOf_some h)
      simp only [Option.map_eq_none_iff, ih, List.exists_mem_cons]
      simp [this]

theorem canonicalFromProto_some {names fields : List Str} {idx : List Nat}
    (h : canonicalFromProto names fields = some idx) :
    idx.length = fields.length ∧
    ∀ i (hi : i < fields.length) (hi' : i < idx.length), names[idx[i]]? = some fields[i] := by
  induction fields generalizing idx with
  | nil =>
    simp only [canonicalFromProto, Option.some.injEq] at h
    subst h
    exact ⟨rfl, by simp⟩
  | cons f fields ih =>
    rw [canonicalFromProto] at h
    cases hl : lastIndexOf names f with
    | none => rw [hl] at h; cases h
    | some j =>
      rw [hl] at h
      simp only [Option.map_eq_some_iff] at h
      obtain ⟨r, hr, rfl⟩ := h
      obtain ⟨h1, h2⟩ := ih hr
      refine ⟨by simp [h1], ?_⟩
      intro i hi hi'
      cases i with
      | zero => exact lastIndexOf_some hl
      | succ i => exact h2 i (by simpa using hi) (by simpa using hi')

theorem mapM_spec {α β : Type} {f : α → Option β} {l : List α} {r : List β}
    (h : l.mapM f = some r) : r.length = l.length ∧
      ∀ i (hi : i < l.length) (hi' : i < r.length), f l[i] = some r[i] := by
  induction l generalizing r with
  | nil =>
    simp only [List.mapM_nil] at h
    have : r = [] := by injection h with h; exact h.symm
    subst this
    exact ⟨rfl, by simp⟩
  | cons a l ih =>
    rw [List.mapM_cons] at h
    cases ha : f a with
    | none => rw [ha] at h; cases h
    | some b =>
      rw [ha] at h
      cases hl : l.mapM f with
      | none => rw [hl] at h; cases h
      | some bs =>
        rw [hl] at h
        have : b :: bs = r := by injection h
        subst this
        obtain ⟨h1, h2⟩ := ih hl
        refine ⟨by simp [h1], ?_⟩
        intro i hi hi'
        cases i with
        | zero => exact ha
        | succ i => exact h2 i (by simpa using hi) (by simpa using hi')

theorem mapM_isSome {α β : Type} {f : α → Option β} {l : List α}
    (h : ∀ x ∈ l, ∃ y, f x = some y) : ∃ r, l.mapM f = some r := by
  induction l with
  | nil => exact ⟨[], rfl⟩
  | cons a l ih =>
    obtain ⟨b, hb⟩ := h a (by simp)
    obtain ⟨bs, hbs⟩ := ih (fun x hx => h x (by simp [hx]))
    exact ⟨b :: bs, by rw [List.mapM_cons, hb, hbs]; rfl⟩

/-! #### sampling -/

theorem toInt32_of {n : Int} (h : InI32 n) : toInt32 n = n := by
  unfold toInt32
  unfold InI32 at h
  rw [Int.emod_eq_of_lt (by omega) (by omega)]
  omega

theorem cellDraw_admits {d : DataPoint} (hb : Bounds32 d) (o : Outcome Int)
    (h : cellDraw (cellOf d) o) : ∃ x, o = .ok x ∧ Admits d x := by
  unfold cellOf at h
  unfold Admits
  unfold Bounds32 at hb
  cases he : d.exact with
  | some v =>
    rw [he] at h
    exact ⟨v, h, rfl⟩
  | none =>
    rw [he] at h
    obtain ⟨h1, h2, h3⟩ := hb he
    simp only [cellDraw, toInt32_of h1, toInt32_of h2, if_pos h3] at h
    obtain ⟨v, a, b, rfl⟩ := h
    exact ⟨v, rfl, a, b⟩

theorem admits_cellDraw {d : DataPoint} (hb : Bounds32 d) {x : Int} (h : Admits d x) :
    cellDraw (cellOf d) (.ok x) := by
  unfold cellOf
  unfold Admits at h
  unfold Bounds32 at hb
  cases he : d.exact with
  | some v =>
    rw [he] at h
    simp only at h
    subst h
    exact rfl
  | none =>
    rw [he] at h
    obtain ⟨h1, h2, h3⟩ := hb he
    simp only [cellDraw, toInt32_of h1, toInt32_of h2, if_pos h3]
    exact ⟨x, h.1, h.2, rfl⟩

theorem drawDims_iff (k : Nat) (rows : List (List Cell)) (ds : List DataPoint)
    (hlen : rows.length = ds.length)
    (hrow : ∀ i (hi : i < rows.length) (hi' : i < ds.length), rows[i][k]? = some (cellOf ds[i]))
    (hb : ∀ d ∈ ds, Bounds32 d) (o : Outcome (List Int)) :
    DrawDims k rows o ↔ ∃ s, o = .ok s ∧ s.length = ds.length ∧
      ∀ i (hi : i < ds.length) (hi' : i < s.length), Admits ds[i] s[i] := by
  induction rows generalizing ds o with
  | nil =>
    cases ds with
    | cons d ds => simp at hlen
    | nil =>
      constructor
      · intro h; cases h; exact ⟨[], rfl, rfl, by simp⟩
      · rintro ⟨s, rfl, hs, _⟩
        have : s = [] := List.eq_nil_of_length_eq_zero (by simpa using hs)
        subst this
        exact .nil
  | cons row rows ih =>
    cases ds with
    | nil => simp at hlen
    | cons d ds =>
      have h0 : row[k]? = some (cellOf d) := hrow 0 (by simp) (by simp)
      have hbd := hb d (by simp)
      have ih' := ih ds (by simpa using hlen)
        (fun i hi hi' => hrow (i + 1) (by simpa using hi) (by simpa using hi'))
        (fun d hd => hb d (by simp [hd]))
      constructor
      · intro h
        cases h with
        | oob h => rw [h0] at h; cases h
        | bad h hc =>
          rw [h0] at h; cases h
          obtain ⟨x, hx, _⟩ := cellDraw_admits hbd _ hc
          cases hx
        | later h hc hl =>
          obtain ⟨s, hs, _⟩ := (ih' _).1 hl
          cases hs
        | step h hc hl =>
          rw [h0] at h; cases h
          obtain ⟨x, hx, ha⟩ := cellDraw_admits hbd _ hc
          cases hx
          obtain ⟨s, hs, hsl, hsa⟩ := (ih' _).1 hl
          cases hs
          refine ⟨_, rfl, by simp [hsl], ?_⟩
          intro i hi hi'
          cases i with
          | zero => exact ha
          | succ i => exact hsa i (by simpa using hi) (by simpa using hi')
      · rintro ⟨s, rfl, hsl, hsa⟩
        cases s with
        | nil => simp at hsl
        | cons x s =>
          refine .step h0 (admits_cellDraw hbd (hsa 0 (by simp) (by simp))) ?_
          exact (ih' _).2 ⟨s, rfl, by simpa using hsl,
            fun i hi hi' => hsa (i + 1) (by simpa using hi) (by simpa using hi')⟩

theorem filterMap_total {α β : Type} (f : α → Option β) (l : List α)
    (h : ∀ x ∈ l, (f x).isSome) (k : Nat) :
    (l.filterMap f)[k]? = (l[k]?).bind f := by
  induction l generalizing k with
  | nil => simp
  | cons a l ih =>
    have ha := h a (by simp)
    obtain ⟨b, hb⟩ := Option.isSome_iff_exists.1 ha
    rw [List.filterMap_cons, hb]
    cases k with
    | zero => simp [hb]
    | succ k => simpa using ih (fun x hx => h x (by simp [hx])) k

/-- Sampling from a PMF whose points all have the same number of data points. -/
theorem sample_iff (points : List PmfPoint) (dims : Nat) (hne : points ≠ [])
    (hd : ∀ p ∈ points, p.dataPoints.length = dims)
    (hw : weightsValid (points.map (·.pmf)))
    (hb : ∀ p ∈ points, ∀ q : Rat, p.pmf = .num q → 0 < q → ∀ d ∈ p.dataPoints, Bounds32 d)
    (o : Outcome (List Int)) :
    getRandomSample (initWithPmf points) o ↔
      ∃ p ∈ points, (∃ q : Rat, p.pmf = .num q ∧ 0 < q) ∧
        ∃ s, o = .ok s ∧ s.length = p.dataPoints.length ∧
          ∀ i (hi : i < p.dataPoints.length) (hi' : i < s.length), Admits p.dataPoints[i] s[i] := by
  have hcl : (initWithPmf points).cells.length = dims := by
    unfold initWithPmf
    cases points with
    | nil => exact absurd rfl hne
    | cons p ps => simp [hd p (by simp)]
  have hrow : ∀ (k : Nat) (p : PmfPoint), points[k]? = some p → ∀ i (hi : i < (initWithPmf points).cells.length)
      (hi' : i < p.dataPoints.length), ((initWithPmf points).cells[i])[k]?
        = some (cellOf p.dataPoints[i]) := by
    intro k p hk i hi hi'
    have hp : p ∈ points := List.mem_of_getElem? hk
    simp only [initWithPmf, List.getElem_map, List.getElem_range]
    rw [filterMap_total, hk]
    · simp [List.getElem?_eq_getElem hi']
    · intro x hx
      have : i < x.dataPoints.length := by rw [hd x hx]; rw [hcl] at hi; exact hi
      simp [List.getElem?_eq_getElem this]
  have hlen : ∀ p ∈ points, (initWithPmf points).cells.length = p.dataPoints.length :=
    fun p hp => by rw [hcl, hd p hp]
  unfold getRandomSample
  have hwe : (initWithPmf points).weights = points.map (·.pmf) := rfl
  rw [hwe]
  constructor
  · rintro (⟨h, _⟩ | ⟨_, k, q, hk, hq, hdr⟩)
    · exact absurd hw h
    · rw [List.getElem?_map, Option.map_eq_some_iff] at hk
      obtain ⟨p, hp, hpq⟩ := hk
      have hpm := List.mem_of_getElem? hp
      refine ⟨p, hpm, ⟨q, hpq, hq⟩, ?_⟩
      exact (drawDims_iff k _ p.dataPoints (hlen p hpm) (hrow k p hp) (hb p hpm q hpq hq) o).1 hdr
  · rintro ⟨p, hpm, ⟨q, hpq, hq⟩, h⟩
    obtain ⟨k, hk, he⟩ := List.mem_iff_getElem.1 hpm
    have hp : points[k]? = some p := by rw [List.getElem?_eq_getElem hk, he]
    refine Or.inr ⟨hw, k, q, ?_, hq, ?_⟩
    · rw [List.getElem?_map, hp]; simp [hpq]
    · exact (drawDims_iff k _ p.dataPoints (hlen p hpm) (hrow k p hp) (hb p hpm q hpq hq) o).2 h

/-- If every term is zero the rounded sum stays zero. -/
theorem roundedSum_zero (rnd : Rat → Rat) (hr : rnd 0 = 0) (qs : List Rat) (h : ∀ q ∈ qs, q = 0) :
    roundedSum rnd qs = 0 := by
  unfold roundedSum
  induction qs with
  | nil => rfl
  | cons q qs ih =>
    have : q = 0 := h q (by simp)
    subst this
    rw [List.foldl_cons]
    have h0 : rnd (0 + 0) = 0 := by rw [show (0 : Rat) + 0 = 0 by grind]; exact hr
    rw [h0]
    exact ih (fun q hq => h q (by simp [hq]))

/-- The sampler's own CDF conversion. -/
theorem cdfToPmfLoop_spec (u : Bool) (rest : List (Rat × Int)) (prev : Rat) (v0 : Int)
    (hv : ∀ p ∈ rest, InI64 (p.2 + 1)) :
    ∃ ps, cdfToPmfLoop id u (rest.map cdfPoint) (.num prev) v0 = some ps ∧
      ps.length = rest.length ∧
      ∀ k (hk : k < rest.length) (hk' : k < ps.length),
        ps[k].dataPoints = [if u then { lower := some (lowerOf v0 rest k), upper := some rest[k].2 }
          else { exact := some rest[k].2 }] ∧
        ps[k].pmf = .num (rest[k].1 - ((prev :: rest.map (·.1))[k]?).getD 0) := by
  induction rest generalizing prev v0 with
  | nil => exact ⟨[], rfl, rfl, by simp⟩
  | cons p rest ih =>
    obtain ⟨ps, h1, h2, h3⟩ := ih p.1 (p.2 + 1) (fun q hq => hv q (by simp [hq]))
    rw [List.map_cons, cdfToPmfLoop]
    rw [if_pos (show InI64 ((cdfPoint p).value + 1) from hv p (by simp))]
    refine ⟨_, by rw [show (cdfPoint p).cdf = .num p.1 from rfl,
      show (cdfPoint p).value = p.2 from rfl, h1]; rfl, by simp [h2], ?_⟩
    intro k hk hk'
    cases k with
    | zero => exact ⟨by simp [lowerOf], by simp [F.sub]⟩
    | succ k =>
      have := h3 k (by simpa using hk) (by simpa using hk')
      have hlow : lowerOf (p.2 + 1) rest k = lowerOf v0 (p :: rest) (k + 1) := by
        cases k with
        | zero => simp [lowerOf]
        | succ k => simp [lowerOf]
      simp only [List.getElem_cons_succ, List.map_cons, List.getElem?_cons_succ]
      rw [← hlow]
      exact this

end Distbench.Dist
