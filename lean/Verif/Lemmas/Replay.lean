import Verif.Spec.Replay

/-! Invariants of trace replay. -/

namespace Distbench.Replay
open Spec

/-! ### counting -/

theorem countP_range_eq {n : Nat} {p q : Nat → Bool} (h : ∀ k, k < n → p k = q k) :
    (List.range n).countP p = (List.range n).countP q := by
  apply List.countP_congr
  intro k hk
  rw [h k (List.mem_range.1 hk)]

theorem countP_range_single {p q : Nat → Bool} {x : Nat} (hp : p x = true) (hq : q x = false)
    (h : ∀ k, k ≠ x → p k = q k) : ∀ (n : Nat), x < n →
    (List.range n).countP p = (List.range n).countP q + 1 := by
  intro n
  induction n with
  | zero => intro hx; omega
  | succ n ih =>
    intro hx
    rw [List.range_succ, List.countP_append, List.countP_append, List.countP_singleton,
      List.countP_singleton]
    by_cases hxn : x = n
    · subst hxn
      rw [countP_range_eq (fun k hk => h k (by omega)), hp, hq]
      simp
    · rw [ih (by omega), h n (fun e => hxn e.symm)]
      omega

theorem exists_of_countP_range {p : Nat → Bool} {n : Nat} (h : (List.range n).countP p ≠ 0) :
    ∃ i, i < n ∧ p i = true := by
  obtain ⟨a, ha, hp⟩ := List.countP_pos_iff.1 (Nat.pos_of_ne_zero h)
  exact ⟨a, List.mem_range.1 ha, hp⟩

/-! ### dependencies -/

def depsL (e : Env) (i : Nat) (ds : List Int) : List Nat :=
  ds.filterMap (fun d => if e.mine ((i : Int) - 1 - d).toNat then some ((i : Int) - 1 - d).toNat else none)

def depsOf (e : Env) (i : Nat) : List Nat := depsL e i (e.record i).priorRpcDistances

theorem belongs_iff {e : Env} {i : Nat} : Belongs e i ↔ i < e.records.length ∧ e.mine i = true := by
  unfold Belongs Env.mine
  cases h : (e.record i).clientInstance with
  | none => simp
  | some c => simp [bne]

instance (e : Env) (i : Nat) : Decidable (Belongs e i) := decidable_of_iff _ belongs_iff.symm

theorem mem_depsOf {e : Env} (hg : GoodDistances e) {i j : Nat} (hi : Belongs e i) :
    j ∈ depsOf e i ↔ RefersTo e i j := by
  unfold depsOf depsL RefersTo
  rw [List.mem_filterMap]
  constructor
  · rintro ⟨d, hd, hj⟩
    obtain ⟨h0, h1⟩ := hg i hi d hd
    split at hj
    · rename_i hm
      injection hj with hj
      subst hj
      refine ⟨hi, belongs_iff.2 ⟨?_, hm⟩, d, hd, by omega⟩
      have := hi.1
      omega
    · simp at hj
  · rintro ⟨-, hj, d, hd, hij⟩
    refine ⟨d, hd, ?_⟩
    have : ((i : Int) - 1 - d).toNat = j := by omega
    rw [this, if_pos (belongs_iff.1 hj).2]

theorem refersTo_lt {e : Env} (hg : GoodDistances e) {i j : Nat} (h : RefersTo e i j) : j < i := by
  obtain ⟨hi, hj, d, hd, hij⟩ := h
  have := hg i hi d hd
  omega

/-! ### setting up -/

theorem addDeps_ok {e : Env} {i : Nat} : ∀ (ds : List Int) {p p' : Plan} {n n' : Int},
    addDeps e i ds p n = .ok (p', n') →
    (∀ d ∈ ds, 0 ≤ d ∧ d < i) ∧ n' = n + (depsL e i ds).length ∧
    p'.remainingDeps = p.remainingDeps ∧ p'.ready = p.ready ∧ p'.remaining = p.remaining ∧
    (∀ j k, (p'.startDependents j).count k = (p.startDependents j).count k +
      if k = i ∧ e.mode i = .priorStart then (depsL e i ds).count j else 0) ∧
    (∀ j k, (p'.endDependents j).count k = (p.endDependents j).count k +
      if k = i ∧ e.mode i = .priorEnd then (depsL e i ds).count j else 0) := by
  intro ds
  induction ds with
  | nil =>
    intro p p' n n' h
    simp only [addDeps, Outcome.ok.injEq, Prod.mk.injEq] at h
    obtain ⟨rfl, rfl⟩ := h
    simp [depsL]
  | cons d ds ih =>
    intro p p' n n' h
    unfold addDeps at h
    split at h
    · simp at h
    split at h
    · simp at h
    rename_i h0 h1
    simp only [] at h
    have hd : 0 ≤ d ∧ d < i := by omega
    split at h
    · rename_i hm
      have hm : e.mine ((i : Int) - 1 - d).toNat = false := by simpa using hm
      have hL : depsL e i (d :: ds) = depsL e i ds := by simp [depsL, hm]
      obtain ⟨g1, g2, g3, g4, g5, g6, g7⟩ := ih h
      rw [hL]
      refine ⟨?_, g2, g3, g4, g5, g6, g7⟩
      intro x hx
      rcases List.mem_cons.1 hx with rfl | hx
      · exact hd
      · exact g1 x hx
    · rename_i hm
      have hm : e.mine ((i : Int) - 1 - d).toNat = true := by simpa using hm
      have hL : depsL e i (d :: ds) = ((i : Int) - 1 - d).toNat :: depsL e i ds := by
        simp [depsL, hm]
      obtain ⟨g1, g2, g3, g4, g5, g6, g7⟩ := ih h
      rw [hL]
      refine ⟨?_, by rw [g2, List.length_cons]; omega, ?_, ?_, ?_, ?_, ?_⟩
      · intro x hx
        rcases List.mem_cons.1 hx with rfl | hx
        · exact hd
        · exact g1 x hx
      · rw [g3]; split <;> rfl
      · rw [g4]; split <;> rfl
      · rw [g5]; split <;> rfl
      · intro j k
        rw [g6, List.count_cons]
        generalize hx : ((i : Int) - 1 - d).toNat = x
        cases hmode : e.mode i <;> simp [pushAt]
        split
        · rename_i hj
          subst hj
          simp only [List.count_append, List.count_singleton]
          by_cases hk : k = i
          · subst hk; simp; omega
          · have : ¬ i = k := fun h => hk h.symm
            simp [hk, this]
        · rename_i hj
          have : ¬ x = j := fun h => hj h.symm
          simp [this]
      · intro j k
        rw [g7, List.count_cons]
        generalize hx : ((i : Int) - 1 - d).toNat = x
        cases hmode : e.mode i <;> simp [pushAt]
        split
        · rename_i hj
          subst hj
          simp only [List.count_append, List.count_singleton]
          by_cases hk : k = i
          · subst hk; simp; omega
          · have : ¬ i = k := fun h => hk h.symm
            simp [hk, this]
        · rename_i hj
          have : ¬ x = j := fun h => hj h.symm
          simp [this]

theorem addDeps_some {e : Env} {i : Nat} : ∀ (ds : List Int) (p : Plan) (n : Int),
    (∀ d ∈ ds, 0 ≤ d ∧ d < i) → ∃ r, addDeps e i ds p n = .ok r := by
  intro ds
  induction ds with
  | nil => intro p n _; exact ⟨_, rfl⟩
  | cons d ds ih =>
    intro p n h
    have hd := h d List.mem_cons_self
    unfold addDeps
    rw [if_neg (by omega), if_neg (by omega)]
    simp only []
    split
    · exact ih _ _ (fun x hx => h x (List.mem_cons_of_mem _ hx))
    · exact ih _ _ (fun x hx => h x (List.mem_cons_of_mem _ hx))

/-- The base of the time of an RPC without dependencies. -/
def base (e : Env) (i : Nat) : Int := if e.mode i = .traceStart then e.traceStart else e.trafficStart

/-- The plan after the first `m` records. -/
structure PlanOk (e : Env) (m : Nat) (p : Plan) : Prop where
  good : ∀ i, i < m → e.mine i → ∀ d ∈ (e.record i).priorRpcDistances, 0 ≤ d ∧ d < i
  deps : ∀ k, p.remainingDeps k = if k < m ∧ e.mine k then ((depsOf e k).length : Int) else 0
  starts : ∀ j k, (p.startDependents j).count k =
    if k < m ∧ e.mine k ∧ e.mode k = .priorStart then (depsOf e k).count j else 0
  ends : ∀ j k, (p.endDependents j).count k =
    if k < m ∧ e.mine k ∧ e.mode k = .priorEnd then (depsOf e k).count j else 0
  ready : ∀ k, (p.ready.map (·.2)).count k = if k < m ∧ e.mine k ∧ depsOf e k = [] then 1 else 0
  times : ∀ t k, (t, k) ∈ p.ready → t = base e k + e.timing k
  remaining : p.remaining = ((List.range m).countP e.mine : Int)

theorem planOk_empty (e : Env) : PlanOk e 0 .empty := by
  refine ⟨?_, ?_, ?_, ?_, ?_, ?_, ?_⟩ <;> simp [Plan.empty]

theorem planOk_skip {e : Env} {m : Nat} {p : Plan} (h : PlanOk e m p) (hm : e.mine m = false) :
    PlanOk e (m + 1) p := by
  obtain ⟨h0, h1, h2, h3, h4, h5, h6⟩ := h
  have hlt : ∀ k, e.mine k = true → (k < m + 1 ↔ k < m) := by
    intro k hk
    constructor
    · intro h
      rcases Nat.lt_succ_iff_lt_or_eq.1 h with h | h
      · exact h
      · subst h; rw [hm] at hk; simp at hk
    · omega
  refine ⟨?_, ?_, ?_, ?_, ?_, h5, ?_⟩
  · intro i hi hmi; exact h0 i ((hlt i hmi).1 hi) hmi
  · intro k; rw [h1]
    cases hk : e.mine k with
    | true => simp [hlt k hk]
    | false => simp
  · intro j k; rw [h2]
    cases hk : e.mine k with
    | true => simp [hlt k hk]
    | false => simp
  · intro j k; rw [h3]
    cases hk : e.mine k with
    | true => simp [hlt k hk]
    | false => simp
  · intro k; rw [h4]
    cases hk : e.mine k with
    | true => simp [hlt k hk]
    | false => simp
  · rw [h6, List.range_succ, List.countP_append]
    simp [hm]

theorem addRecord_planOk {e : Env} {m : Nat} {p p' : Plan} (h : PlanOk e m p)
    (hr : addRecord e m p = .ok p') : PlanOk e (m + 1) p' := by
  unfold addRecord at hr
  cases hm : e.mine m with
  | false =>
    rw [hm] at hr
    simp only [Bool.not_false, if_true, Outcome.ok.injEq] at hr
    subst hr
    exact planOk_skip h hm
  | true =>
    rw [hm] at hr
    simp only [Bool.not_true, Bool.false_eq_true, if_false] at hr
    split at hr
    · rename_i p1 n ha
      obtain ⟨g1, g2, g3, g4, g5, g6, g7⟩ := addDeps_ok _ ha
      obtain ⟨h0, h1, h2, h3, h4, h5, h6⟩ := h
      have hlen : n = ((depsOf e m).length : Int) := by rw [g2]; simp [depsOf]
      have hgood : ∀ i, i < m + 1 → e.mine i → ∀ d ∈ (e.record i).priorRpcDistances, 0 ≤ d ∧ d < i := by
        intro i hi hmi
        rcases Nat.lt_succ_iff_lt_or_eq.1 hi with h | h
        · exact h0 i h hmi
        · subst h; exact g1
      have hdeps : ∀ k, (if k = m then n else p1.remainingDeps k) =
          if k < m + 1 ∧ e.mine k then ((depsOf e k).length : Int) else 0 := by
        intro k
        by_cases hk : k = m
        · subst hk; rw [if_pos rfl, if_pos ⟨by omega, hm⟩, hlen]
        · rw [if_neg hk, g3]
          show p.remainingDeps k = _
          rw [h1]
          have : k < m + 1 ↔ k < m := by omega
          simp [this]
      have hst : ∀ j k, (p1.startDependents j).count k =
          if k < m + 1 ∧ e.mine k ∧ e.mode k = .priorStart then (depsOf e k).count j else 0 := by
        intro j k
        rw [g6]
        show (p.startDependents j).count k + _ = _
        rw [h2]
        by_cases hk : k = m
        · subst hk
          simp [hm, depsOf]
        · have : k < m + 1 ↔ k < m := by omega
          simp [this, hk]
      have hen : ∀ j k, (p1.endDependents j).count k =
          if k < m + 1 ∧ e.mine k ∧ e.mode k = .priorEnd then (depsOf e k).count j else 0 := by
        intro j k
        rw [g7]
        show (p.endDependents j).count k + _ = _
        rw [h3]
        by_cases hk : k = m
        · subst hk
          simp [hm, depsOf]
        · have : k < m + 1 ↔ k < m := by omega
          simp [this, hk]
      have hrem : p1.remaining = ((List.range (m + 1)).countP e.mine : Int) := by
        rw [g5, List.range_succ, List.countP_append]
        show p.remaining + 1 = _
        rw [h6]; simp [hm]
      have hadd : ∀ t : Int, t = base e m + e.timing m → n = 0 → PlanOk e (m + 1)
          { p1 with remainingDeps := (fun k => if k = m then n else p1.remainingDeps k)
                    ready := p1.ready ++ [(t, m)] } := by
        intro t ht hn
        have hnil : depsOf e m = [] := List.length_eq_zero_iff.1 (by omega)
        refine ⟨hgood, hdeps, hst, hen, ?_, ?_, hrem⟩
        · intro k
          simp only [List.map_append, List.map_cons, List.map_nil, List.count_append,
            List.count_singleton]
          rw [g4]
          show (p.ready.map (·.2)).count k + _ = _
          rw [h4]
          by_cases hk : k = m
          · subst hk; simp [hm, hnil]
          · have : k < m + 1 ↔ k < m := by omega
            have hk' : ¬ m = k := fun h => hk h.symm
            simp [this, hk']
        · intro t' k hmem
          simp only [List.mem_append, List.mem_singleton, Prod.mk.injEq] at hmem
          rcases hmem with hmem | ⟨rfl, rfl⟩
          · rw [g4] at hmem; exact h5 t' k hmem
          · exact ht
      split at hr
      · rename_i hn
        split at hr
        · rename_i hmode
          injection hr with hr
          subst hr
          exact hadd _ (by unfold base; rw [if_pos hmode]) hn
        · rename_i hmode
          injection hr with hr
          subst hr
          exact hadd _ (by unfold base; rw [if_neg (by simpa using hmode)]) hn
      · rename_i hn
        injection hr with hr
        subst hr
        have hnil : depsOf e m ≠ [] := by
          intro h; rw [h] at hlen; exact hn hlen
        refine ⟨hgood, hdeps, hst, hen, ?_, ?_, hrem⟩
        · intro k
          show (p1.ready.map (·.2)).count k = _
          rw [g4]
          show (p.ready.map (·.2)).count k = _
          rw [h4]
          by_cases hk : k = m
          · subst hk; simp [hnil]
          · have : k < m + 1 ↔ k < m := by omega
            simp [this]
        · intro t' k hmem
          have hmem : (t', k) ∈ p1.ready := hmem
          rw [g4] at hmem; exact h5 t' k hmem
    · simp at hr
    · simp at hr
    · simp at hr

theorem addRecords_planOk {e : Env} : ∀ (k i : Nat) {p p' : Plan}, PlanOk e i p →
    addRecords e k i p = .ok p' → PlanOk e (i + k) p' := by
  intro k
  induction k with
  | zero => intro i p p' h hr; simp only [addRecords, Outcome.ok.injEq] at hr; subst hr; exact h
  | succ k ih =>
    intro i p p' h hr
    unfold addRecords at hr
    cases ha : addRecord e i p with
    | ok p1 =>
      rw [ha] at hr
      have := ih (i + 1) (addRecord_planOk h ha) hr
      rw [show i + (k + 1) = i + 1 + k from by omega]
      exact this
    | error m => rw [ha] at hr; simp [Outcome.bind] at hr
    | ub => rw [ha] at hr; simp [Outcome.bind] at hr
    | crash => rw [ha] at hr; simp [Outcome.bind] at hr

theorem setup_planOk {e : Env} {p : Plan} (h : setup e = .ok p) : PlanOk e e.records.length p := by
  have := addRecords_planOk e.records.length 0 (planOk_empty e) h
  simpa using this

theorem addRecord_some {e : Env} {i : Nat} (p : Plan)
    (h : e.mine i → ∀ d ∈ (e.record i).priorRpcDistances, 0 ≤ d ∧ d < i) :
    ∃ p', addRecord e i p = .ok p' := by
  unfold addRecord
  cases hm : e.mine i with
  | false => exact ⟨p, by simp⟩
  | true =>
    simp only [Bool.not_true, Bool.false_eq_true, if_false]
    obtain ⟨⟨p1, n⟩, hr⟩ := addDeps_some (e := e) (i := i) _ { p with remaining := p.remaining + 1 } 0 (h hm)
    rw [hr]
    simp only []
    split
    · split <;> exact ⟨_, rfl⟩
    · exact ⟨_, rfl⟩

theorem addRecords_some {e : Env} : ∀ (k i : Nat) (p : Plan),
    (∀ j, i ≤ j → j < i + k → e.mine j → ∀ d ∈ (e.record j).priorRpcDistances, 0 ≤ d ∧ d < j) →
    ∃ p', addRecords e k i p = .ok p' := by
  intro k
  induction k with
  | zero => intro i p _; exact ⟨p, rfl⟩
  | succ k ih =>
    intro i p h
    obtain ⟨p1, h1⟩ := addRecord_some p (h i (by omega) (by omega))
    obtain ⟨p2, h2⟩ := ih (i + 1) p1 (fun j a b => h j (by omega) (by omega))
    exact ⟨p2, by unfold addRecords; rw [h1]; exact h2⟩

theorem setup_iff (e : Env) : (∃ p, setup e = .ok p) ↔ GoodDistances e := by
  constructor
  · rintro ⟨p, hp⟩ i hi
    obtain ⟨a, b⟩ := belongs_iff.1 hi
    exact (setup_planOk hp).good i a b
  · intro h
    exact addRecords_some _ 0 _ (fun j _ hj hm => h j (belongs_iff.2 ⟨by omega, hm⟩))

/-! ### activation -/

theorem activate_ok (e : Env) (time : Int) : ∀ (L : List Nat) (deps : Nat → Int)
    (ready : List (Int × Nat)), (∀ k, (L.count k : Int) ≤ deps k) →
    (∀ k, (activate e time L (deps, ready)).1 k = deps k - L.count k) ∧
    (∀ k, ((activate e time L (deps, ready)).2.map (·.2)).count k =
      (ready.map (·.2)).count k + if k ∈ L ∧ deps k = L.count k then 1 else 0) ∧
    (∀ t k, (t, k) ∈ (activate e time L (deps, ready)).2 → (t, k) ∈ ready ∨
      t = time + e.timing k ∧ k ∈ L ∧ deps k = L.count k) ∧
    (∀ x ∈ ready, x ∈ (activate e time L (deps, ready)).2) := by
  intro L
  induction L with
  | nil => intro deps ready _; simp [activate]
  | cons a L ih =>
    intro deps ready h
    unfold activate
    simp only []
    have ha := h a
    rw [List.count_cons_self] at ha
    obtain ⟨g1, g2, g3, g4⟩ := ih (fun m => if m = a then deps a - 1 else deps m)
      (if deps a - 1 = 0 then ready ++ [(time + e.timing a, a)] else ready) (by
        intro k
        have hk := h k
        rw [List.count_cons] at hk
        by_cases hka : k = a
        · subst hka; simp at hk ⊢; omega
        · have : ¬ a = k := fun h => hka h.symm
          simp [this] at hk
          simp [hka]; exact hk)
    refine ⟨?_, ?_, ?_, ?_⟩
    · intro k
      rw [g1, List.count_cons]
      by_cases hka : k = a
      · subst hka; simp; omega
      · have : ¬ a = k := fun h => hka h.symm
        simp [hka, this]
    · intro k
      rw [g2, List.count_cons]
      by_cases hka : k = a
      · subst hka
        simp only [List.mem_cons, true_or, true_and, if_true, beq_self_eq_true]
        by_cases h1 : deps k - 1 = 0
        · have hc : L.count k = 0 := by omega
          have hnm : k ∉ L := by rw [← List.count_eq_zero]; exact hc
          rw [if_pos h1]
          simp [hnm, hc]
          omega
        · rw [if_neg h1]
          by_cases hmem : k ∈ L
          · simp [hmem]
            congr 1
            rw [eq_iff_iff]
            omega
          · have hc : L.count k = 0 := List.count_eq_zero.2 hmem
            simp [hmem, hc]
            omega
      · have hak : ¬ a = k := fun h => hka h.symm
        have : ((if deps a - 1 = 0 then ready ++ [(time + e.timing a, a)] else ready).map (·.2)).count k
            = (ready.map (·.2)).count k := by
          split
          · simp [List.count_singleton, hak]
          · rfl
        rw [this]
        simp [hka, hak]
    · intro t k hm
      rcases g3 t k hm with hm | ⟨ht, hk, hc⟩
      · split at hm
        · rename_i h1
          simp only [List.mem_append, List.mem_singleton, Prod.mk.injEq] at hm
          rcases hm with hm | ⟨rfl, rfl⟩
          · exact .inl hm
          · refine .inr ⟨rfl, List.mem_cons_self, ?_⟩
            rw [List.count_cons_self]
            omega
        · exact .inl hm
      · refine .inr ⟨ht, List.mem_cons_of_mem _ hk, ?_⟩
        rw [List.count_cons]
        by_cases hka : k = a
        · subst hka; simp at hc ⊢; omega
        · have hak : ¬ a = k := fun h => hka h.symm
          simp [hka] at hc
          simp [hak, hc]
    · intro x hx
      refine g4 x ?_
      split
      · exact List.mem_append_left _ hx
      · exact hx

end Distbench.Replay
