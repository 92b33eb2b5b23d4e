import Verif.Lemmas.Placement
import Verif.Props.Services

/-! Property theorems C15–C19, C61–C63: constraints and service placement. -/

namespace Distbench
open Placement Spec

/-! ### C15 -/

/-- With usable moduli, checking a constraint list gives a verdict, and it is positive exactly when
every set has a satisfied constraint. -/
theorem C15_constraint_semantics (cl : ConstraintList) (attrs : List Attribute)
    (hm : ∀ cs ∈ cl, ∀ c ∈ cs, ModulusOk c) :
    ∃ b, checkConstraintList cl attrs = .ok b ∧ (b = true ↔ SatisfiesAll attrs cl) := by
  obtain ⟨b, hb⟩ := checkList_total (attrs := attrs) hm
  exact ⟨b, hb, checkList_sound hb⟩

/-- Whatever the moduli, a verdict that is given is the right one. -/
theorem C15_verdict_sound (cl : ConstraintList) (attrs : List Attribute) (b : Bool)
    (h : checkConstraintList cl attrs = .ok b) : b = true ↔ SatisfiesAll attrs cl :=
  checkList_sound h

/-- Integer attributes are read exactly as signed decimal 64-bit numbers. -/
theorem C15_integer_text (s : Str) (v : Int) : simpleAtoi64 s = some v ↔ DenotesInt s v :=
  simpleAtoi64_iff s v

/-- A node without the attribute satisfies no constraint on it. -/
theorem C15_missing_attribute (c : Constraint) (attrs : List Attribute)
    (h : ∀ a ∈ attrs, a.name ≠ c.attributeName) : checkConstraint c attrs = .ok false := by
  unfold checkConstraint
  induction attrs with
  | nil => rfl
  | cons a attrs ih =>
    rw [anyTrue]
    have : checkAttribute c a = .ok false := by
      unfold checkAttribute
      rw [if_pos (h a (by simp))]
    rw [this]
    exact ih (fun x hx => h x (by simp [hx]))

example : checkConstraintList
    [[{ attributeName := "rack".toList, relation := .equal, stringValues := ["r7".toList] },
      { attributeName := "id".toList, relation := .moduloEqual, int64Values := [1], modulus := 3 }]]
    [{ name := "id".toList, value := " 16".toList }] = .ok true := by decide +kernel

/-! ### C61: a modulo constraint without a modulus -/

/-- Missing from the full property ("checking always gives a verdict"): constraints whose modulus
is 0 or -1, see `C61_unset_modulus_undefined`. -/
theorem C61_verdict_partial (cl : ConstraintList) (attrs : List Attribute)
    (hm : ∀ cs ∈ cl, ∀ c ∈ cs, ModulusOk c) : ∃ b, checkConstraintList cl attrs = .ok b :=
  checkList_total hm

/-- A modulo constraint that leaves its modulus unset (0) divides by zero as soon as a node has a
numeric value for the attribute. -/
theorem C61_unset_modulus_undefined : ∃ (c : Constraint) (a : Attribute),
    c.modulus = 0 ∧ checkConstraintList [[c]] [a] = .ub :=
  ⟨{ attributeName := "id".toList, relation := .moduloEqual, int64Values := [0] },
    { name := "id".toList, value := "4".toList }, rfl, by decide +kernel⟩

/-! ### placement -/

/-- Adding the empty entries changes who hosts what for no node. -/
theorem hosts_addEmpty (m : NodeServiceMap) (ns : List Str) (a b : Str) :
    Hosts (ns.foldl addEmpty m) a b ↔ Hosts m a b := by
  induction ns generalizing m with
  | nil => rfl
  | cons n ns ih =>
    rw [List.foldl_cons, ih]
    unfold addEmpty
    split
    · rfl
    · unfold Hosts
      constructor
      · rintro ⟨ss, h1, h2⟩
        rw [List.mem_append, List.mem_singleton] at h1
        rcases h1 with h1 | h1
        · exact ⟨ss, h1, h2⟩
        · rw [(Prod.mk.inj h1).2] at h2; simp at h2
      · rintro ⟨ss, h1, h2⟩; exact ⟨ss, by simp [h1], h2⟩

theorem placeServices_ok {glob : Str → Str → Bool} {p : Problem} {m : NodeServiceMap}
    (h : placeServices glob p = .ok m) :
    ∃ m', constraintSolver glob p = .ok m' ∧ ∀ a b, Hosts m a b ↔ Hosts m' a b := by
  unfold placeServices at h
  cases hs : constraintSolver glob p with
  | ok m' =>
    rw [hs] at h
    simp only [Outcome.ok.injEq] at h
    subst h
    exact ⟨m', rfl, fun a b => hosts_addEmpty _ _ _ _⟩
  | error m => rw [hs] at h; cases h
  | ub => rw [hs] at h; cases h
  | crash => rw [hs] at h; cases h

theorem mem_bundleNodes {p : Problem} {n s : Str} (h : Bundled p n s) :
    n ∈ p.bundles.map (·.1) ∧ s ∈ p.bundles.flatMap (·.2) := by
  obtain ⟨ss, h1, h2⟩ := h
  exact ⟨List.mem_map.2 ⟨_, h1, rfl⟩, List.mem_flatMap.2 ⟨_, h1, h2⟩⟩

/-- C16.  A successful placement puts only instances of the test on only registered nodes, and every
instance on exactly one node, provided no instance is both bundled and constrained. -/
theorem C16_exactly_one_node (glob : Str → Str → Bool) (p : Problem) (hw : WellFormed p)
    (m : NodeServiceMap) (h : placeServices glob p = .ok m)
    (hex : ∀ s ∈ p.services, ∀ n cl, Bundled p n s → ¬ ConstraintFor glob p s cl) :
    (∀ n s, Hosts m n s → n ∈ p.nodes.map (·.1) ∧ s ∈ p.services) ∧
    (∀ s ∈ p.services, ∃ n, Hosts m n s ∧ ∀ n', Hosts m n' s → n' = n) := by
  obtain ⟨m', hs, hh⟩ := placeServices_ok h
  obtain ⟨h1, h2, h3, A, a1, a2, a3, a4, a5, a6⟩ := solver_ok hw hs
  constructor
  · intro n s hns
    rw [hh, a6] at hns
    rcases hns with hb | hA
    · obtain ⟨ss, k1, k2⟩ := id hb
      exact ⟨h1 _ k1, h3 s (mem_bundleNodes hb).2⟩
    · exact ⟨(a2 n (List.mem_map.2 ⟨_, hA, rfl⟩)).1, ((a4 s).1 (List.mem_map.2 ⟨_, hA, rfl⟩)).1⟩
  · intro s hsv
    by_cases hb : s ∈ p.bundles.flatMap (·.2)
    · obtain ⟨⟨n, ss⟩, k1, k2⟩ := List.mem_flatMap.1 hb
      have hbn : Bundled p n s := ⟨ss, k1, k2⟩
      refine ⟨n, by rw [hh, a6]; exact Or.inl hbn, ?_⟩
      intro n' hn'
      rw [hh, a6] at hn'
      rcases hn' with ⟨ss', k3, k4⟩ | hA
      · exact flat_unique h2 k3 k4 k1 k2
      · rcases ((a4 s).1 (List.mem_map.2 ⟨_, hA, rfl⟩)).2 with ⟨cl, hcl⟩ | hnb
        · exact absurd hcl (hex s hsv n cl hbn)
        · exact absurd hb hnb
    · have hA := (a4 s).2 ⟨hsv, Or.inr hb⟩
      obtain ⟨⟨s', n⟩, k1, k2⟩ := List.mem_map.1 hA
      simp only at k2
      subst k2
      refine ⟨n, by rw [hh, a6]; exact Or.inr k1, ?_⟩
      intro n' hn'
      rw [hh, a6] at hn'
      rcases hn' with hbn | hA'
      · exact absurd (mem_bundleNodes hbn).2 hb
      · exact snd_unique a3 hA' k1

/-- Every registered node has an entry in the result. -/
theorem C16_every_node_listed (glob : Str → Str → Bool) (p : Problem) (m : NodeServiceMap)
    (h : placeServices glob p = .ok m) : ∀ n ∈ p.nodes.map (·.1), n ∈ m.map (·.1) := by
  unfold placeServices at h
  cases hs : constraintSolver glob p with
  | ok m' =>
    rw [hs] at h
    simp only [Outcome.ok.injEq] at h
    subst h
    have key : ∀ (ns : List Str) (m : NodeServiceMap),
        (∀ n ∈ m.map (·.1), n ∈ (ns.foldl addEmpty m).map (·.1)) ∧
        (∀ n ∈ ns, n ∈ (ns.foldl addEmpty m).map (·.1)) := by
      intro ns
      induction ns with
      | nil => intro m; exact ⟨fun n hn => hn, by simp⟩
      | cons k ns ih =>
        intro m
        rw [List.foldl_cons]
        obtain ⟨i1, i2⟩ := ih (addEmpty m k)
        have hk : (∀ n ∈ m.map (·.1), n ∈ (addEmpty m k).map (·.1)) ∧ k ∈ (addEmpty m k).map (·.1) := by
          unfold addEmpty
          split
          · rename_i hm; exact ⟨fun n hn => hn, hm⟩
          · exact ⟨fun n hn => by rw [List.map_append, List.mem_append]; exact Or.inl hn, by simp⟩
        refine ⟨fun n hn => i1 n (hk.1 n hn), ?_⟩
        intro n hn
        rcases List.mem_cons.1 hn with rfl | hn
        · exact i1 _ hk.2
        · exact i2 n hn
    exact (key _ m').2
  | error m => rw [hs] at h; cases h
  | ub => rw [hs] at h; cases h
  | crash => rw [hs] at h; cases h

/-- The instance names of accepted services with distinct slash-free names are distinct, as
`WellFormed` requires. -/
theorem C16_names_distinct (services : List Services.ServiceSpec)
    (hc : ∀ s ∈ services, ∃ raw, FieldsFit raw ∧ Services.getCanonicalServiceSpec raw = .ok s)
    (hsl : ∀ s ∈ services, '/' ∉ s.name) (hnd : (services.map (·.name)).Nodup) :
    ∃ names, problemServices services = some names ∧ names.Nodup := by
  obtain ⟨_, names, _, h2, h3, _⟩ := C09_instance_ids services hc hsl hnd
  exact ⟨names, h2, h3⟩

/-- A small concrete problem used as the non-vacuity witness of the placement theorems: one bundle,
one explicit and one wildcard constraint, two free services. -/
def sampleProblem : Problem :=
  { services := ["a/0", "a/1", "b/0", "c/0"].map String.toList,
    nodes := [("n0".toList, [{ name := "r".toList, value := "1".toList }]),
              ("n1".toList, [{ name := "r".toList, value := "2".toList }]),
              ("n2".toList, [])],
    bundles := [("n2".toList, ["a/1".toList, "c/0".toList])],
    serviceConstraints := [("b*".toList, [[{ attributeName := "r".toList, relation := .equal,
                                             stringValues := ["1".toList] }]])] }

/-- The matching used for the sample: the pattern without its last character is a prefix. -/
def sampleGlob (pat s : Str) : Bool := pat.dropLast.isPrefixOf s

theorem sample_wf : WellFormed sampleProblem := by
  constructor <;> decide

/-- The placement of the sample problem. -/
def sampleResult : NodeServiceMap :=
  [("n2".toList, ["c/0".toList, "a/1".toList]), ("n0".toList, ["b/0".toList]),
   ("n1".toList, ["a/0".toList])]

theorem sample_ok : placeServices sampleGlob sampleProblem = .ok sampleResult := by decide +kernel

theorem sample_exclusive : ∀ s ∈ sampleProblem.services, ∀ n cl, Bundled sampleProblem n s →
    ¬ ConstraintFor sampleGlob sampleProblem s cl := by
  intro s _ n cl hb hc
  have hs : s = "a/1".toList ∨ s = "c/0".toList := by
    obtain ⟨ss, h1, h2⟩ := hb
    simp only [sampleProblem, List.mem_singleton, Prod.mk.injEq] at h1
    rw [h1.2] at h2
    simpa using h2
  rcases hc with ⟨h, hstar⟩ | ⟨_, pat, h, _, hg⟩
  · simp only [sampleProblem, List.mem_singleton, Prod.mk.injEq] at h
    rcases hs with rfl | rfl
    · exact absurd h.1 (by decide)
    · exact absurd h.1 (by decide)
  · simp only [sampleProblem, List.mem_singleton, Prod.mk.injEq] at h
    rw [h.1] at hg
    rcases hs with rfl | rfl
    · exact absurd hg (by decide)
    · exact absurd hg (by decide)

example : ∃ n, Hosts sampleResult n "b/0".toList ∧ ∀ n', Hosts sampleResult n' "b/0".toList → n' = n :=
  (C16_exactly_one_node sampleGlob sampleProblem sample_wf _ sample_ok sample_exclusive).2
    "b/0".toList (by decide)

/-! ### C62: bundled and constrained instances -/

/-- Missing from the full property ("exactly one node"): uniqueness, see `C62_placed_twice`.  Even
instances that are both bundled and constrained are placed somewhere. -/
theorem C62_at_least_one_partial (glob : Str → Str → Bool) (p : Problem) (hw : WellFormed p)
    (m : NodeServiceMap) (h : placeServices glob p = .ok m) : ∀ s ∈ p.services, ∃ n, Hosts m n s := by
  obtain ⟨m', hs, hh⟩ := placeServices_ok h
  obtain ⟨h1, h2, h3, A, a1, a2, a3, a4, a5, a6⟩ := solver_ok hw hs
  intro s hsv
  by_cases hb : s ∈ p.bundles.flatMap (·.2)
  · obtain ⟨⟨n, ss⟩, k1, k2⟩ := List.mem_flatMap.1 hb
    exact ⟨n, by rw [hh, a6]; exact Or.inl ⟨ss, k1, k2⟩⟩
  · obtain ⟨⟨s', n⟩, k1, k2⟩ := List.mem_map.1 ((a4 s).2 ⟨hsv, Or.inr hb⟩)
    simp only at k2
    subst k2
    exact ⟨n, by rw [hh, a6]; exact Or.inr k1⟩

/-- An instance that is in a bundle and also constrained is placed on two nodes. -/
theorem C62_placed_twice : ∃ (p : Problem) (m : NodeServiceMap), WellFormed p ∧
    placeServices (fun _ _ => false) p = .ok m ∧ p.services = ["a/0".toList] ∧
    Hosts m "n0".toList "a/0".toList ∧ Hosts m "n1".toList "a/0".toList :=
  ⟨{ services := ["a/0".toList], nodes := [("n0".toList, []), ("n1".toList, [])],
     bundles := [("n0".toList, ["a/0".toList])], serviceConstraints := [("a/0".toList, [])] },
   [("n0".toList, ["a/0".toList]), ("n1".toList, ["a/0".toList])],
   by constructor <;> decide, by decide +kernel, rfl,
   ⟨["a/0".toList], by simp, by simp⟩, ⟨["a/0".toList], by simp, by simp⟩⟩

/-! ### C17 -/

/-- Bundled instances are hosted by their bundle's node. -/
theorem C17_bundles_honoured (glob : Str → Str → Bool) (p : Problem) (hw : WellFormed p)
    (m : NodeServiceMap) (h : placeServices glob p = .ok m) (n s : Str) (hb : Bundled p n s) :
    Hosts m n s := by
  obtain ⟨m', hs, hh⟩ := placeServices_ok h
  obtain ⟨h1, h2, h3, A, a1, a2, a3, a4, a5, a6⟩ := solver_ok hw hs
  rw [hh, a6]; exact Or.inl hb

/-- A bundle for an unregistered node, a bundle with an instance the test does not have, or an
instance listed twice makes placement fail with an error. -/
theorem C17_bad_bundles_rejected (glob : Str → Str → Bool) (p : Problem) (hw : WellFormed p)
    (h : (∃ b ∈ p.bundles, b.1 ∉ p.nodes.map (·.1)) ∨ (∃ n s, Bundled p n s ∧ s ∉ p.services) ∨
      ¬ (p.bundles.flatMap (·.2)).Nodup) :
    ∃ msg, placeServices glob p = .error msg := by
  unfold placeServices constraintSolver
  rcases placeBundles_verdict p.bundles
    { unplaced := p.services, idle := p.nodes.map (·.1), placed := [] } with ⟨st, hst⟩ | ⟨msg, hmsg⟩
  · exfalso
    obtain ⟨_, b2, b3, b4, _⟩ := placeBundles_ok hst hw.nodes
    rcases h with ⟨b, hb, hn⟩ | ⟨n, s, hb, hn⟩ | hn
    · exact hn (b2 b hb)
    · exact hn (b4 s (mem_bundleNodes hb).2)
    · exact hn b3
  · rw [hmsg]; exact ⟨msg, rfl⟩

example : Hosts sampleResult "n2".toList "c/0".toList :=
  C17_bundles_honoured sampleGlob sampleProblem sample_wf _ sample_ok _ _
    ⟨["a/1".toList, "c/0".toList], by simp [sampleProblem], by simp⟩

example : ∃ msg, placeServices sampleGlob
    { sampleProblem with bundles := [("n9".toList, ["a/0".toList])] } = .error msg :=
  C17_bad_bundles_rejected _ _ (by constructor <;> decide)
    (Or.inl ⟨("n9".toList, ["a/0".toList]), by simp, by decide⟩)

/-! ### C18 -/

theorem attributesOf_mem {nodes : List (Str × List Attribute)} (h : (nodes.map (·.1)).Nodup)
    {n : Str} {attrs : List Attribute} (hm : (n, attrs) ∈ nodes) : attributesOf nodes n = attrs := by
  induction nodes with
  | nil => simp at hm
  | cons e nodes ih =>
    obtain ⟨k, a⟩ := e
    rw [List.map_cons, List.nodup_cons] at h
    rw [attributesOf]
    rcases List.mem_cons.1 hm with he | hm
    · have := Prod.mk.inj he
      rw [if_pos this.1.symm, this.2]
    · rw [if_neg, ih h.2 hm]
      rintro rfl
      exact h.1 (List.mem_map.2 ⟨_, hm, rfl⟩)

/-- A constrained instance that is not bundled sits on a node whose attributes satisfy the
constraint list meant for it (its own, or else one of the matching wildcards). -/
theorem C18_constraints_honoured (glob : Str → Str → Bool) (p : Problem) (hw : WellFormed p)
    (m : NodeServiceMap) (h : placeServices glob p = .ok m) (n s : Str) (attrs : List Attribute)
    (hh : Hosts m n s) (hnb : ∀ n', ¬ Bundled p n' s) (hn : (n, attrs) ∈ p.nodes)
    (hc : ∃ cl, ConstraintFor glob p s cl) :
    ∃ cl, ConstraintFor glob p s cl ∧ SatisfiesAll attrs cl := by
  obtain ⟨m', hs, hh'⟩ := placeServices_ok h
  obtain ⟨h1, h2, h3, A, a1, a2, a3, a4, a5, a6⟩ := solver_ok hw hs
  rw [hh', a6] at hh
  rcases hh with hb | hA
  · exact absurd hb (hnb n)
  · obtain ⟨cl, k1, k2⟩ := a5 _ hA hc
    rw [attributesOf_mem hw.nodes hn] at k2
    exact ⟨cl, k1, k2⟩

/-- Constraints given under the instance's own name win over every wildcard. -/
theorem C18_explicit_wins (glob : Str → Str → Bool) (p : Problem) (hw : WellFormed p)
    (m : NodeServiceMap) (h : placeServices glob p = .ok m) (n s : Str) (attrs : List Attribute)
    (hh : Hosts m n s) (hnb : ∀ n', ¬ Bundled p n' s) (hn : (n, attrs) ∈ p.nodes)
    (hs : s ∈ p.services) (cl : ConstraintList) (hcl : (s, cl) ∈ p.serviceConstraints) :
    SatisfiesAll attrs cl := by
  obtain ⟨cl', h1, h2⟩ := C18_constraints_honoured glob p hw m h n s attrs hh hnb hn
    ⟨cl, Or.inl ⟨hcl, hw.noStar s hs⟩⟩
  rcases h1 with ⟨h1, _⟩ | ⟨h1, _⟩
  · have huniq : ∀ l : List (Str × ConstraintList), (l.map (·.1)).Nodup → (s, cl) ∈ l → (s, cl') ∈ l →
        cl = cl' := by
      intro l hl
      induction l with
      | nil => simp
      | cons e l ih =>
        intro k1 k2
        rw [List.map_cons, List.nodup_cons] at hl
        rcases List.mem_cons.1 k1 with g1 | g1 <;> rcases List.mem_cons.1 k2 with g2 | g2
        · exact (Prod.mk.inj (g1.trans g2.symm)).2
        · exact absurd (List.mem_map.2 ⟨_, g2, by rw [← g1]⟩) hl.1
        · exact absurd (List.mem_map.2 ⟨_, g1, by rw [← g2]⟩) hl.1
        · exact ih hl.2 g1 g2
    rw [huniq _ hw.constraints hcl h1]
    exact h2
  · exact absurd hcl (h1 cl)

example : ∃ cl, ConstraintFor sampleGlob sampleProblem "b/0".toList cl ∧
    SatisfiesAll [{ name := "r".toList, value := "1".toList }] cl :=
  C18_constraints_honoured sampleGlob sampleProblem sample_wf _ sample_ok "n0".toList "b/0".toList _
    ⟨["b/0".toList], by simp [sampleResult], by simp⟩
    (by
      rintro n' ⟨ss, h1, h2⟩
      simp only [sampleProblem, List.mem_singleton, Prod.mk.injEq] at h1
      rw [h1.2] at h2
      simp at h2)
    (by simp [sampleProblem])
    ⟨_, Or.inr ⟨by intro cl h; simp [sampleProblem] at h,
      "b*".toList, List.mem_singleton.2 rfl, by decide, by decide⟩⟩

/-! ### C19 -/

/-- A node without a bundle hosts at most one instance; a node with a bundle hosts exactly the
instances of the bundle. -/
theorem C19_distinct_nodes (glob : Str → Str → Bool) (p : Problem) (hw : WellFormed p)
    (m : NodeServiceMap) (h : placeServices glob p = .ok m) (n : Str) :
    (n ∉ p.bundles.map (·.1) → ∀ s s', Hosts m n s → Hosts m n s' → s = s') ∧
    (n ∈ p.bundles.map (·.1) → ∀ s, Hosts m n s ↔ Bundled p n s) := by
  obtain ⟨m', hs, hh⟩ := placeServices_ok h
  obtain ⟨h1, h2, h3, A, a1, a2, a3, a4, a5, a6⟩ := solver_ok hw hs
  constructor
  · intro hn s s' k1 k2
    rw [hh, a6] at k1 k2
    rcases k1 with k1 | k1
    · exact absurd (mem_bundleNodes k1).1 hn
    · rcases k2 with k2 | k2
      · exact absurd (mem_bundleNodes k2).1 hn
      · exact fst_unique a1 k1 k2
  · intro hn s
    rw [hh, a6]
    constructor
    · rintro (k | k)
      · exact k
      · exact absurd hn (a2 n (List.mem_map.2 ⟨_, k, rfl⟩)).2
    · exact Or.inl

/-- Placement does not succeed with more unbundled instances than nodes without a bundle. -/
theorem C19_enough_nodes (glob : Str → Str → Bool) (p : Problem) (hw : WellFormed p)
    (m : NodeServiceMap) (h : placeServices glob p = .ok m) :
    (p.services.filter (fun s => s ∉ p.bundles.flatMap (·.2))).length
      ≤ ((p.nodes.map (·.1)).filter (fun n => n ∉ p.bundles.map (·.1))).length := by
  obtain ⟨m', hs, hh⟩ := placeServices_ok h
  obtain ⟨h1, h2, h3, A, a1, a2, a3, a4, a5, a6⟩ := solver_ok hw hs
  have k1 : (p.services.filter (fun s => s ∉ p.bundles.flatMap (·.2))).length ≤ (A.map (·.1)).length := by
    refine nodup_length_le (nodup_filter' hw.services _) ?_
    intro x hx
    rw [List.mem_filter, decide_eq_true_eq] at hx
    exact (a4 x).2 ⟨hx.1, Or.inr hx.2⟩
  have k2 : (A.map (·.2)).length
      ≤ ((p.nodes.map (·.1)).filter (fun n => n ∉ p.bundles.map (·.1))).length := by
    refine nodup_length_le a1 ?_
    intro x hx
    rw [List.mem_filter, decide_eq_true_eq]
    exact a2 x hx
  rw [List.length_map] at k1 k2
  exact Nat.le_trans k1 k2

example : ∀ s s', Hosts sampleResult "n1".toList s → Hosts sampleResult "n1".toList s' → s = s' :=
  (C19_distinct_nodes sampleGlob sampleProblem sample_wf _ sample_ok "n1".toList).1 (by decide)

/-! ### C63: completeness -/

/-- Without constraints, placement succeeds whenever the bundles are consistent and there are enough
nodes.  Missing from the full property: constraints, for which the greedy choice can fail although a
placement exists, see `C63_greedy_fails`. -/
theorem C63_unconstrained_complete_partial (glob : Str → Str → Bool) (p : Problem)
    (hw : WellFormed p) (hc : p.serviceConstraints = [])
    (hb1 : ∀ b ∈ p.bundles, b.1 ∈ p.nodes.map (·.1)) (hb2 : (p.bundles.flatMap (·.2)).Nodup)
    (hb3 : ∀ s ∈ p.bundles.flatMap (·.2), s ∈ p.services)
    (hlen : (p.services.filter (fun s => s ∉ p.bundles.flatMap (·.2))).length
      ≤ ((p.nodes.map (·.1)).filter (fun n => n ∉ p.bundles.map (·.1))).length) :
    ∃ m, placeServices glob p = .ok m := by
  obtain ⟨st, hst⟩ := placeBundles_complete
    (st := { unplaced := p.services, idle := p.nodes.map (·.1), placed := [] }) hw.bundles hb1 hb2 hb3
  obtain ⟨_, b2, b3, b4, b5, b6, b7, b8⟩ := placeBundles_ok hst hw.nodes
  have hnone : ∀ services st, placeConstrained p.nodes [] services st = .ok st := by
    intro services
    induction services with
    | nil => intro st; rfl
    | cons s services ih => intro st; rw [placeConstrained]; exact ih st
  unfold placeServices constraintSolver
  rw [hst]
  have hres : resolveConstraints glob p = [] := by simp [resolveConstraints, hc]
  simp only [hres, hnone]
  split
  · rename_i m hm; exact ⟨_, rfl⟩
  all_goals
    rename_i hm
    split at hm
    · cases hm
    · exfalso
      obtain ⟨m', hm'⟩ := placeRemaining_complete (m := st.placed)
        (rem := p.services.filter (· ∈ st.unplaced)) (idle := st.idle) (by
          have e1 : p.services.filter (· ∈ st.unplaced)
              = p.services.filter (fun s => s ∉ p.bundles.flatMap (·.2)) := by
            apply List.filter_congr
            intro x hx
            have := b7 x
            simp only at this
            simp only [this, hx, true_and]
          have e2 : ((p.nodes.map (·.1)).filter (fun n => n ∉ p.bundles.map (·.1))).length
              ≤ st.idle.length := by
            refine nodup_length_le (nodup_filter' hw.nodes _) ?_
            intro x hx
            rw [List.mem_filter, decide_eq_true_eq] at hx
            exact (b6 x).2 hx
          rw [e1]
          omega)
      rw [hm'] at hm
      cases hm

/-- Two constrained instances and two nodes: putting a/0 on n1 and b/0 on n0 satisfies everything,
but the solver puts a/0 on n0 first and then fails. -/
theorem C63_greedy_fails : ∃ (p : Problem) (ca cb : ConstraintList) (x0 x1 : List Attribute),
    WellFormed p ∧ p.services = ["a/0".toList, "b/0".toList] ∧ p.bundles = [] ∧
    p.nodes = [("n0".toList, x0), ("n1".toList, x1)] ∧
    p.serviceConstraints = [("a/0".toList, ca), ("b/0".toList, cb)] ∧
    SatisfiesAll x1 ca ∧ SatisfiesAll x0 cb ∧
    ∃ msg, placeServices (fun _ _ => false) p = .error msg := by
  refine ⟨{ services := ["a/0".toList, "b/0".toList],
            nodes := [("n0".toList, [{ name := "g".toList, value := "y".toList }]), ("n1".toList, [])],
            serviceConstraints := [("a/0".toList, []),
              ("b/0".toList, [[{ attributeName := "g".toList, relation := .equal,
                                 stringValues := ["y".toList] }]])] },
    _, _, _, _, by constructor <;> decide, rfl, rfl, rfl, rfl, ?_, ?_, "couldn't be placed",
    by decide +kernel⟩
  · intro cs h; simp at h
  · exact (checkList_sound (b := true) (by decide +kernel)).1 rfl

example : ∃ m, placeServices (fun _ _ => false)
    { sampleProblem with serviceConstraints := [] } = .ok m :=
  C63_unconstrained_complete_partial _ _ (by constructor <;> decide) rfl (by decide) (by decide)
    (by decide) (by decide)

end Distbench
