import Verif.Model.Tables
import Verif.Spec.Tables
import Verif.Lemmas.Names

namespace Distbench

theorem Outcome.bind_ok {α β : Type} {x : Outcome α} {f : α → Outcome β} {b : β} :
    (x >>= f) = .ok b ↔ ∃ a, x = .ok a ∧ f a = .ok b := by
  cases x <;> simp [Bind.bind, Outcome.bind]

theorem Outcome.bind_ok_of {α β : Type} {x : Outcome α} {f : α → Outcome β} {a : α}
    (h : x = .ok a) : (x >>= f) = f a := by
  subst h; rfl

/-- Neither undefined nor an abort. -/
def Outcome.Safe {α : Type} (x : Outcome α) : Prop := x ≠ .ub ∧ x ≠ .crash

theorem Outcome.safe_ok {α : Type} (a : α) : (Outcome.ok a).Safe := ⟨by simp, by simp⟩

theorem Outcome.safe_error {α : Type} (m : String) : (Outcome.error m : Outcome α).Safe :=
  ⟨by simp, by simp⟩

theorem Outcome.safe_bind {α β : Type} {x : Outcome α} {f : α → Outcome β} (hx : x.Safe)
    (hf : ∀ a, x = .ok a → (f a).Safe) : (x >>= f).Safe := by
  cases x with
  | ok a => exact hf a rfl
  | error m => exact Outcome.safe_error m
  | ub => exact absurd rfl hx.1
  | crash => exact absurd rfl hx.2

theorem Outcome.safe_cases {α : Type} {x : Outcome α} (h : x.Safe) :
    (∃ a, x = .ok a) ∨ ∃ m, x = .error m := by
  cases x with
  | ok a => exact .inl ⟨a, rfl⟩
  | error m => exact .inr ⟨m, rfl⟩
  | ub => exact absurd rfl h.1
  | crash => exact absurd rfl h.2

namespace Tables
open Services Spec

theorem mapIdx_ok {α β : Type} {f : Nat → α → Outcome β} {i : Nat} {l : List α} {r : List β}
    (h : mapIdxOutcome f i l = .ok r) :
    r.length = l.length ∧
    ∀ k a, l[k]? = some a → ∃ b, r[k]? = some b ∧ f (i + k) a = .ok b := by
  induction l generalizing i r with
  | nil =>
    rw [mapIdxOutcome] at h
    injection h with h
    subst h
    exact ⟨rfl, by simp⟩
  | cons a l ih =>
    rw [mapIdxOutcome, Outcome.bind_ok] at h
    obtain ⟨b, hb, h⟩ := h
    rw [Outcome.bind_ok] at h
    obtain ⟨bs, hbs, h⟩ := h
    injection h with h
    subst h
    obtain ⟨h1, h2⟩ := ih hbs
    refine ⟨by simp [h1], ?_⟩
    intro k x hk
    cases k with
    | zero =>
      simp only [List.getElem?_cons_zero, Option.some.injEq] at hk
      subst hk
      exact ⟨b, rfl, hb⟩
    | succ k =>
      simp only [List.getElem?_cons_succ] at hk
      obtain ⟨y, h3, h4⟩ := h2 k x hk
      refine ⟨y, by simpa using h3, ?_⟩
      rw [← h4]
      congr 1
      omega

theorem mapIdx_exists {α β : Type} {f : Nat → α → Outcome β} {i : Nat} {l : List α}
    (h : ∀ k a, l[k]? = some a → ∃ b, f (i + k) a = .ok b) :
    ∃ r, mapIdxOutcome f i l = .ok r := by
  induction l generalizing i with
  | nil => exact ⟨[], rfl⟩
  | cons a l ih =>
    obtain ⟨b, hb⟩ := h 0 a rfl
    rw [Nat.add_zero] at hb
    obtain ⟨r, hr⟩ := ih (i := i + 1) (by
      intro k x hk
      obtain ⟨y, hy⟩ := h (k + 1) x (by simpa using hk)
      exact ⟨y, by rw [← hy]; congr 1; omega⟩)
    refine ⟨b :: r, ?_⟩
    rw [mapIdxOutcome, Outcome.bind_ok_of hb, Outcome.bind_ok_of hr]

theorem mapIdx_safe {α β : Type} {f : Nat → α → Outcome β} {i : Nat} {l : List α}
    (h : ∀ k a, l[k]? = some a → (f (i + k) a).Safe) : (mapIdxOutcome f i l).Safe := by
  induction l generalizing i with
  | nil => exact Outcome.safe_ok _
  | cons a l ih =>
    rw [mapIdxOutcome]
    refine Outcome.safe_bind (h 0 a rfl) (fun b _ => ?_)
    refine Outcome.safe_bind (ih ?_) (fun bs _ => Outcome.safe_ok _)
    intro k x hk
    have := h (k + 1) x (by simpa using hk)
    have e : i + 1 + k = i + (k + 1) := by omega
    rw [e]
    exact this

/-! ### name maps -/

theorem lastIndices_aux (names : List Str) (m : Nat) (hm : m ≤ names.length) (n : Str) :
    let r := (List.range m).foldl
      (fun (mp : NameMap) (i : Nat) => mp.set (names[i]?.getD []) (i : Int)) []
    (∀ k, r.find n = some k → ∃ kn : Nat, k = kn ∧ kn < m ∧ names[kn]? = some n ∧
      ∀ k', kn < k' → k' < m → names[k']? ≠ some n) ∧
    (r.find n = none → ∀ k < m, names[k]? ≠ some n) := by
  induction m with
  | zero => exact ⟨by intro k h; simp [NameMap.find] at h, by intro _ k hk; omega⟩
  | succ m ih =>
    obtain ⟨ih1, ih2⟩ := ih (by omega)
    have hlt : m < names.length := by omega
    have hg : names[m]? = some names[m] := List.getElem?_eq_getElem hlt
    simp only [List.range_succ, List.foldl_append, List.foldl_cons, List.foldl_nil]
    generalize (List.range m).foldl
      (fun (mp : NameMap) (i : Nat) => mp.set (names[i]?.getD []) (i : Int)) [] = r at *
    rw [hg, Option.getD_some]
    by_cases e : n = names[m]
    · subst e
      rw [NameMap.find_set_self]
      refine ⟨?_, by simp⟩
      intro k hk
      injection hk with hk
      exact ⟨m, hk.symm, by omega, hg, by intro k' h1 h2; omega⟩
    · rw [NameMap.find_set_ne _ _ e]
      constructor
      · intro k hk
        obtain ⟨kn, h1, h2, h3, h4⟩ := ih1 k hk
        refine ⟨kn, h1, by omega, h3, ?_⟩
        intro k' h5 h6
        by_cases e' : k' = m
        · subst e'
          rw [hg]
          intro h
          injection h with h
          exact e h.symm
        · exact h4 k' h5 (by omega)
      · intro hn k hk
        by_cases e' : k = m
        · subst e'
          rw [hg]
          intro h
          injection h with h
          exact e h.symm
        · exact ih2 hn k (by omega)

/-- Looking a name up in a table of positions gives its last position. -/
theorem lastIndices_some {names : List Str} {n : Str} {k : Int}
    (h : (lastIndices names).find n = some k) :
    ∃ kn : Nat, k = kn ∧ names[kn]? = some n ∧ ∀ k', kn < k' → names[k']? ≠ some n := by
  obtain ⟨h1, -⟩ := lastIndices_aux names names.length (Nat.le_refl _) n
  obtain ⟨kn, h2, -, h4, h5⟩ := h1 k h
  refine ⟨kn, h2, h4, ?_⟩
  intro k' hk
  by_cases hl : k' < names.length
  · exact h5 k' hk hl
  · rw [List.getElem?_eq_none (by omega)]; simp

theorem lastIndices_none {names : List Str} {n : Str} (h : (lastIndices names).find n = none) :
    n ∉ names := by
  obtain ⟨-, h1⟩ := lastIndices_aux names names.length (Nat.le_refl _) n
  intro hn
  obtain ⟨k, hk, he⟩ := List.mem_iff_getElem.1 hn
  exact h1 h k hk (by rw [List.getElem?_eq_getElem hk, he])

theorem lastIndices_of_mem {names : List Str} {n : Str} (h : n ∈ names) :
    ∃ k, (lastIndices names).find n = some k := by
  cases hf : (lastIndices names).find n with
  | none => exact absurd h (lastIndices_none hf)
  | some k => exact ⟨k, rfl⟩

/-- Without assuming distinct names: a name found is listed and its index is in range. -/
theorem enumerate_bounds (names : List Str) (m : NameMap) (b : Nat) (hlen : m.length ≤ b)
    (hb : ∀ n k, m.find n = some k → 0 ≤ k ∧ k < b) :
    let r := names.foldl (fun ret name => ret.set name (ret.length : Int)) m
    (∀ n k, r.find n = some k → 0 ≤ k ∧ k < b + names.length) ∧
    (∀ n, r.find n ≠ none ↔ m.find n ≠ none ∨ n ∈ names) := by
  induction names generalizing m b with
  | nil => exact ⟨by simpa using hb, by simp⟩
  | cons a names ih =>
    have hl : (m.set a (m.length : Int)).length ≤ b + 1 := by
      cases hf : m.find a with
      | none => rw [NameMap.length_set_new m _ hf]; omega
      | some v =>
        have : ∀ (m : NameMap) (x : Int), (m.find a).isSome → (m.set a x).length = m.length := by
          intro m x
          induction m with
          | nil => intro h; simp [NameMap.find] at h
          | cons kv m ih =>
            obtain ⟨k, v⟩ := kv
            intro h
            by_cases e : k = a
            · simp [NameMap.set, e]
            · simp only [NameMap.set, if_neg e, List.length_cons]
              rw [ih (by simpa [NameMap.find, e] using h)]
        rw [this m _ (by rw [hf]; rfl)]
        omega
    have := ih (m.set a (m.length : Int)) (b + 1) hl (by
      intro n k hk
      by_cases e : n = a
      · subst e
        rw [NameMap.find_set_self] at hk
        injection hk with hk
        omega
      · rw [NameMap.find_set_ne _ _ e] at hk
        have := hb n k hk
        omega)
    obtain ⟨h1, h2⟩ := this
    simp only [List.foldl_cons]
    constructor
    · intro n k hk
      have := h1 n k hk
      simp only [List.length_cons]
      omega
    · intro n
      rw [h2 n, List.mem_cons]
      by_cases e : n = a
      · subst e
        rw [NameMap.find_set_self]
        simp
      · rw [NameMap.find_set_ne _ _ e]
        simp [e]

theorem enumerate_some {names : List Str} {n : Str} {k : Int}
    (h : (enumerate names).find n = some k) : n ∈ names ∧ 0 ≤ k ∧ k < names.length := by
  obtain ⟨h1, h2⟩ := enumerate_bounds names [] 0 (by simp) (by intro n k h; simp [NameMap.find] at h)
  have h3 := h1 n k h
  have h4 := (h2 n).1 (by unfold enumerate at h; rw [h]; simp)
  refine ⟨by simpa [NameMap.find] using h4, h3.1, by simpa using h3.2⟩

theorem enumerate_of_mem {names : List Str} {n : Str} (h : n ∈ names) :
    ∃ k, (enumerate names).find n = some k := by
  obtain ⟨-, h2⟩ := enumerate_bounds names [] 0 (by simp) (by intro n k h; simp [NameMap.find] at h)
  have := (h2 n).2 (Or.inr h)
  cases hf : (enumerate names).find n with
  | none => exact absurd hf this
  | some k => exact ⟨k, rfl⟩

/-! ### generators -/

/-- The table a successful generator loop leaves: one generator per name, indices in order. -/
theorem initGens_ok {e : Env} {canon : Dist.Config → Outcome Dist.Config} {cs : List Dist.Config}
    {g g' : Gens} (h : initGens e canon cs g = .ok g')
    (hg : ∀ n k, g.map.find n = some k → 0 ≤ k ∧ k < g.gens.length) :
    g'.gens.length = g.gens.length + cs.length ∧
    (∀ n k, g'.map.find n = some k → 0 ≤ k ∧ k < g'.gens.length) ∧
    (∀ n k, g.map.find n = some k → g'.map.find n = some k) ∧
    (∀ n, g'.map.find n ≠ none ↔ g.map.find n ≠ none ∨ ∃ c ∈ cs, c.name = n) ∧
    (∀ i c, cs[i]? = some c → g'.map.find c.name = some ((g.gens.length + i : Nat) : Int)) ∧
    (∀ (i : Nat) gen, g.gens[i]? = some gen → g'.gens[i]? = some gen) ∧
    (∀ i c, cs[i]? = some c → ∃ cc gen, canon c = .ok cc ∧ Dist.initGen e.rnd cc = .ok gen ∧
      g'.gens[g.gens.length + i]? = some gen) := by
  induction cs generalizing g with
  | nil =>
    rw [initGens] at h
    injection h with h
    subst h
    exact ⟨by simp, hg, fun n k h => h, by simp, by simp, fun _ _ h => h, by simp⟩
  | cons c cs ih =>
    rw [initGens] at h
    cases hf : g.map.find c.name with
    | some v => rw [hf] at h; simp at h
    | none =>
      simp only [hf] at h
      rw [Outcome.bind_ok] at h
      obtain ⟨cc, hcc, h⟩ := h
      rw [Outcome.bind_ok] at h
      obtain ⟨gen, hgen, h⟩ := h
      have := ih h (by
        intro n k hk
        simp only [List.length_append, List.length_cons, List.length_nil] at hk ⊢
        by_cases en : n = c.name
        · subst en
          rw [NameMap.find_set_self] at hk
          injection hk with hk
          omega
        · rw [NameMap.find_set_ne _ _ en] at hk
          have := hg n k hk
          omega)
      obtain ⟨h1, h2, h3, h4, h5, h6, h7⟩ := this
      simp only [List.length_append, List.length_cons, List.length_nil] at h1 h5 h7
      refine ⟨by simp only [List.length_cons]; omega, h2, ?_, ?_, ?_, ?_, ?_⟩
      · intro n k hk
        refine h3 n k ?_
        have en : n ≠ c.name := by rintro rfl; rw [hf] at hk; simp at hk
        simp only
        rw [NameMap.find_set_ne _ _ en]
        exact hk
      · intro n
        rw [h4 n]
        by_cases en : n = c.name
        · subst en
          simp only
          rw [NameMap.find_set_self]
          constructor
          · intro _; exact .inr ⟨c, by simp, rfl⟩
          · intro _; exact .inl (by simp)
        · simp only
          rw [NameMap.find_set_ne _ _ en]
          simp only [List.mem_cons, exists_eq_or_imp]
          constructor
          · rintro (h | h)
            · exact .inl h
            · exact .inr (.inr h)
          · rintro (h | h | h)
            · exact .inl h
            · exact absurd h.symm en
            · exact .inr h
      · intro i x hx
        cases i with
        | zero =>
          simp only [List.getElem?_cons_zero, Option.some.injEq] at hx
          subst hx
          exact h3 _ _ (by simp only; rw [NameMap.find_set_self]; rfl)
        | succ i =>
          simp only [List.getElem?_cons_succ] at hx
          have := h5 i x hx
          rw [this]
          congr 2
          omega
      · intro i x hx
        refine h6 i x ?_
        have : i < g.gens.length := by
          by_cases hlt : i < g.gens.length
          · exact hlt
          · rw [List.getElem?_eq_none (by omega)] at hx; simp at hx
        simp only
        rw [List.getElem?_append_left this]
        exact hx
      · intro i x hx
        cases i with
        | zero =>
          simp only [List.getElem?_cons_zero, Option.some.injEq] at hx
          subst hx
          refine ⟨cc, gen, hcc, hgen, h6 _ _ ?_⟩
          simp
        | succ i =>
          simp only [List.getElem?_cons_succ] at hx
          obtain ⟨a, b, ha, hb, hc⟩ := h7 i x hx
          refine ⟨a, b, ha, hb, ?_⟩
          rw [← hc]
          congr 1
          omega

theorem initGens_index {e : Env} {canon : Dist.Config → Outcome Dist.Config}
    {cs : List Dist.Config} {g : Gens} (h : initGens e canon cs {} = .ok g) (n : Str) :
    (g.index n ≠ -1 ↔ ∃ c ∈ cs, c.name = n) ∧
    (g.index n ≠ -1 → 0 ≤ g.index n ∧ g.index n < g.gens.length) := by
  obtain ⟨-, h2, -, h4, -⟩ := initGens_ok h (by intro n k h; simp [NameMap.find] at h)
  have h4 := h4 n
  unfold Gens.index
  cases hf : g.map.find n with
  | none =>
    rw [hf] at h4
    have h5 : ¬ ∃ c ∈ cs, c.name = n := fun hx => (h4.2 (.inr hx)) rfl
    simp only [Option.getD_none, ne_eq, not_true_eq_false, false_iff, false_implies, and_true]
    exact h5
  | some k =>
    rw [hf] at h4
    have hk := h2 n k hf
    have h5 : ∃ c ∈ cs, c.name = n := by
      rcases h4.1 (by simp) with h6 | h6
      · exact absurd rfl h6
      · exact h6
    simp only [Option.getD_some]
    exact ⟨⟨fun _ => h5, fun _ => by omega⟩, fun _ => hk⟩

/-! ### payloads -/

theorem initPayloads_ok {sizes : Gens} {ps : List PayloadSpec} {m m' : PayloadMap}
    (h : initPayloads sizes ps m = .ok m') :
    m' = m ++ ps ∧
    (∀ p ∈ ps, ∀ d, p.sizeDistributionName = some d → sizes.index d ≠ -1) ∧
    ((m.map (·.name)).Nodup → (m'.map (·.name)).Nodup) := by
  induction ps generalizing m with
  | nil =>
    rw [initPayloads] at h
    injection h with h
    subst h
    exact ⟨by simp, by simp, fun h => h⟩
  | cons p ps ih =>
    rw [initPayloads] at h
    by_cases hd : (findPayload m p.name).isSome = true
    · rw [if_pos hd] at h; simp at h
    · rw [if_neg hd] at h
      have hnot : p.name ∉ m.map (·.name) := by
        intro hm
        obtain ⟨q, hq, hn⟩ := List.mem_map.1 hm
        apply hd
        rw [findPayload, List.find?_isSome]
        exact ⟨q, hq, by simpa using hn⟩
      have key : initPayloads sizes ps (m ++ [p]) = .ok m' ∧
          ∀ d, p.sizeDistributionName = some d → sizes.index d ≠ -1 := by
        cases hsd : p.sizeDistributionName with
        | none => rw [hsd] at h; exact ⟨h, by simp⟩
        | some d =>
          rw [hsd] at h
          simp only at h
          by_cases hi : sizes.index d = -1
          · rw [if_pos hi] at h; simp at h
          · rw [if_neg hi] at h
            refine ⟨h, ?_⟩
            intro d' hd'
            injection hd' with hd'
            subst hd'
            exact hi
      obtain ⟨h1, h2, h3⟩ := ih key.1
      refine ⟨by rw [h1]; simp, ?_, ?_⟩
      · intro q hq
        rcases List.mem_cons.1 hq with rfl | hq
        · exact key.2
        · exact h2 q hq
      · intro hnd
        refine h3 ?_
        rw [List.map_append, List.nodup_append]
        refine ⟨hnd, by simp, ?_⟩
        intro x hx y hy
        simp only [List.map_cons, List.map_nil, List.mem_singleton] at hy
        subst hy
        rintro rfl
        exact hnot hx

theorem sizedPayload_of_index {cfg : Config} {e : Env} {sizes : Gens} {payloads : PayloadMap}
    (hs : initGens e (canonicalSize e) cfg.sizeDistributions {} = .ok sizes)
    (hp : initPayloads sizes cfg.payloads [] = .ok payloads) {n : Str}
    (h : getPayloadSizeIndex sizes payloads n ≠ -1) : SizedPayload cfg n := by
  obtain ⟨h1, h2, -⟩ := initPayloads_ok hp
  unfold getPayloadSizeIndex at h
  cases hf : findPayload payloads n with
  | none => rw [hf] at h; simp at h
  | some p =>
    rw [hf] at h
    simp only at h
    cases hd : p.sizeDistributionName with
    | none => rw [hd] at h; simp at h
    | some d =>
      rw [hd] at h
      simp only at h
      have hm : p ∈ payloads := List.mem_of_find?_eq_some hf
      have hn : p.name = n := by simpa using List.find?_some hf
      rw [h1, List.nil_append] at hm
      exact ⟨p, hm, hn, d, hd, ((initGens_index hs d).1).1 h⟩

theorem index_of_sizedPayload {cfg : Config} {e : Env} {sizes : Gens} {payloads : PayloadMap}
    (hs : initGens e (canonicalSize e) cfg.sizeDistributions {} = .ok sizes)
    (hp : initPayloads sizes cfg.payloads [] = .ok payloads) {n : Str}
    (h : SizedPayload cfg n) : getPayloadSizeIndex sizes payloads n ≠ -1 := by
  obtain ⟨h1, -, h3⟩ := initPayloads_ok hp
  rw [List.nil_append] at h1
  have hnd := h3 (by simp)
  obtain ⟨p, hm, hn, d, hd, hc⟩ := h
  have hf : findPayload payloads n = some p := by
    rw [h1] at hnd ⊢
    clear hp h1 h3
    unfold findPayload
    generalize cfg.payloads = ps at hm hnd
    induction ps with
    | nil => simp at hm
    | cons q qs ih =>
      rw [List.map_cons, List.nodup_cons] at hnd
      rw [List.find?_cons]
      rcases List.mem_cons.1 hm with rfl | hm
      · simp [hn]
      · have : q.name ≠ n := by
          rintro rfl
          exact hnd.1 (List.mem_map.2 ⟨p, hm, hn⟩)
        simp only [this, decide_false]
        exact ih hm hnd.2
  unfold getPayloadSizeIndex
  rw [hf]
  simp only [hd]
  exact ((initGens_index hs d).1).2 hc

/-! ### activities and traces -/

theorem parse_name {ac : ActivityConfig} {p : ParsedActivity} (h : parseActivityConfig ac = .ok p) :
    p.name = ac.name := by
  unfold parseActivityConfig at h
  simp only at h
  repeat' split at h
  all_goals first
    | (injection h with h; subst h; rfl)
    | simp at h

theorem initActivities_ok {acs : List ActivityConfig} {t t' : Activities}
    (h : initActivities acs t = .ok t') :
    (∀ n, t'.map.find n ≠ none ↔ t.map.find n ≠ none ∨ ∃ a ∈ acs, a.name = n) ∧
    (∀ n k, t.map.find n = some k → t'.map.find n = some k) ∧
    (∀ i a, acs[i]? = some a → t'.map.find a.name = some ((t.stored.length + i : Nat) : Int)) ∧
    (∀ (i : Nat) p, t.stored[i]? = some p → t'.stored[i]? = some p) ∧
    (∀ i a, acs[i]? = some a → ∃ p, parseActivityConfig a = .ok p ∧
      t'.stored[t.stored.length + i]? = some p) := by
  induction acs generalizing t with
  | nil =>
    rw [initActivities] at h
    injection h with h
    subst h
    exact ⟨by simp, fun _ _ h => h, by simp, fun _ _ h => h, by simp⟩
  | cons ac acs ih =>
    rw [initActivities] at h
    cases hf : t.map.find ac.name with
    | some v => rw [hf] at h; simp at h
    | none =>
      simp only [hf] at h
      rw [Outcome.bind_ok] at h
      obtain ⟨p, hp, h⟩ := h
      have hn := parse_name hp
      rw [hn] at h
      obtain ⟨h1, h2, h3, h4, h5⟩ := ih h
      simp only [List.length_append, List.length_cons, List.length_nil] at h3 h5
      refine ⟨?_, ?_, ?_, ?_, ?_⟩
      · intro n
        rw [h1 n]
        simp only
        by_cases en : n = ac.name
        · subst en
          rw [NameMap.find_set_self]
          constructor
          · intro _; exact .inr ⟨ac, by simp, rfl⟩
          · intro _; exact .inl (by simp)
        · rw [NameMap.find_set_ne _ _ en]
          simp only [List.mem_cons, exists_eq_or_imp]
          constructor
          · rintro (h | h)
            · exact .inl h
            · exact .inr (.inr h)
          · rintro (h | h | h)
            · exact .inl h
            · exact absurd h.symm en
            · exact .inr h
      · intro n k hk
        refine h2 n k ?_
        have en : n ≠ ac.name := by rintro rfl; rw [hf] at hk; simp at hk
        simp only
        rw [NameMap.find_set_ne _ _ en]
        exact hk
      · intro i x hx
        cases i with
        | zero =>
          simp only [List.getElem?_cons_zero, Option.some.injEq] at hx
          subst hx
          exact h2 _ _ (by simp only; rw [NameMap.find_set_self]; rfl)
        | succ i =>
          simp only [List.getElem?_cons_succ] at hx
          rw [h3 i x hx]
          congr 2
          omega
      · intro i x hx
        refine h4 i x ?_
        have : i < t.stored.length := by
          by_cases hlt : i < t.stored.length
          · exact hlt
          · rw [List.getElem?_eq_none (by omega)] at hx; simp at hx
        simp only
        rw [List.getElem?_append_left this]
        exact hx
      · intro i x hx
        cases i with
        | zero =>
          simp only [List.getElem?_cons_zero, Option.some.injEq] at hx
          subst hx
          exact ⟨p, hp, h4 _ _ (by simp)⟩
        | succ i =>
          simp only [List.getElem?_cons_succ] at hx
          obtain ⟨b, hb, hc⟩ := h5 i x hx
          refine ⟨b, hb, ?_⟩
          rw [← hc]
          congr 1
          omega

theorem initTraces_ok {sizes : NameMap} {ts : List RpcReplayTrace} {i : Nat} {m m' : NameMap}
    (h : initTraces sizes ts i m = .ok m') :
    (∀ n, m'.find n ≠ none ↔ m.find n ≠ none ∨ ∃ t ∈ ts, t.name = n) ∧
    (∀ n k, m.find n = some k → m'.find n = some k) ∧
    (∀ j t, ts[j]? = some t → m'.find t.name = some ((i + j : Nat) : Int)) ∧
    (∀ t ∈ ts, validateRpcReplayTrace t sizes = .ok ()) := by
  induction ts generalizing i m with
  | nil =>
    rw [initTraces] at h
    injection h with h
    subst h
    exact ⟨by simp, fun _ _ h => h, by simp, by simp⟩
  | cons t ts ih =>
    rw [initTraces] at h
    cases hf : m.find t.name with
    | some v => rw [hf] at h; simp at h
    | none =>
      simp only [hf] at h
      rw [Outcome.bind_ok] at h
      obtain ⟨⟨⟩, hv, h⟩ := h
      obtain ⟨h1, h2, h3, h4⟩ := ih h
      refine ⟨?_, ?_, ?_, ?_⟩
      · intro n
        rw [h1 n]
        by_cases en : n = t.name
        · subst en
          rw [NameMap.find_set_self]
          constructor
          · intro _; exact .inr ⟨t, by simp, rfl⟩
          · intro _; exact .inl (by simp)
        · rw [NameMap.find_set_ne _ _ en]
          simp only [List.mem_cons, exists_eq_or_imp]
          constructor
          · rintro (h | h)
            · exact .inl h
            · exact .inr (.inr h)
          · rintro (h | h | h)
            · exact .inl h
            · exact absurd h.symm en
            · exact .inr h
      · intro n k hk
        refine h2 n k ?_
        have en : n ≠ t.name := by rintro rfl; rw [hf] at hk; simp at hk
        rw [NameMap.find_set_ne _ _ en]
        exact hk
      · intro j x hx
        cases j with
        | zero =>
          simp only [List.getElem?_cons_zero, Option.some.injEq] at hx
          subst hx
          exact h2 _ _ (by rw [NameMap.find_set_self]; rfl)
        | succ j =>
          simp only [List.getElem?_cons_succ] at hx
          rw [h3 j x hx]
          congr 2
          omega
      · intro x hx
        rcases List.mem_cons.1 hx with rfl | hx
        · exact hv
        · exact h4 x hx

/-! ### dependencies -/

theorem resolveDeps_ok {indices : NameMap} {j : Nat} {ds : List Str} {ks : List Int}
    (h : resolveDeps indices j ds = .ok ks) :
    ks.length = ds.length ∧
    ∀ (i : Nat) d, ds[i]? = some d → ∃ k, ks[i]? = some k ∧ indices.find d = some k ∧ k < j := by
  induction ds generalizing ks with
  | nil =>
    rw [resolveDeps] at h
    injection h with h
    subst h
    exact ⟨rfl, by simp⟩
  | cons d ds ih =>
    rw [resolveDeps] at h
    cases hf : indices.find d with
    | none => rw [hf] at h; simp at h
    | some k =>
      simp only [hf] at h
      by_cases hk : (j : Int) ≤ k
      · rw [if_pos hk] at h; simp at h
      · rw [if_neg hk, Outcome.bind_ok] at h
        obtain ⟨ks', hks, h⟩ := h
        injection h with h
        subst h
        obtain ⟨h1, h2⟩ := ih hks
        refine ⟨by simp [h1], ?_⟩
        intro i x hx
        cases i with
        | zero =>
          simp only [List.getElem?_cons_zero, Option.some.injEq] at hx
          subst hx
          exact ⟨k, rfl, hf, by omega⟩
        | succ i =>
          simp only [List.getElem?_cons_succ] at hx ⊢
          exact h2 i x hx

theorem resolveDeps_exists {indices : NameMap} {j : Nat} {ds : List Str}
    (h : ∀ d ∈ ds, ∃ k, indices.find d = some k ∧ k < j) : ∃ ks, resolveDeps indices j ds = .ok ks := by
  induction ds with
  | nil => exact ⟨[], rfl⟩
  | cons d ds ih =>
    obtain ⟨k, hk, hlt⟩ := h d (by simp)
    obtain ⟨ks, hks⟩ := ih (fun x hx => h x (by simp [hx]))
    refine ⟨k :: ks, ?_⟩
    have hn : ¬ (j : Int) ≤ k := by omega
    rw [resolveDeps]
    simp only [hk]
    rw [if_neg hn, Outcome.bind_ok_of hks]

theorem resolveDeps_safe {indices : NameMap} {j : Nat} {ds : List Str} :
    (resolveDeps indices j ds).Safe := by
  induction ds with
  | nil => exact Outcome.safe_ok _
  | cons d ds ih =>
    rw [resolveDeps]
    split
    · exact Outcome.safe_error _
    · split
      · exact Outcome.safe_error _
      · exact Outcome.safe_bind ih (fun _ _ => Outcome.safe_ok _)

end Tables
end Distbench
