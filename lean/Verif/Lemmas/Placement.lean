import Verif.Lemmas.Constraints

namespace Distbench.Placement
open Spec Services

theorem hosts_insert (m : NodeServiceMap) (n s a b : Str) :
    Hosts (m.insert n s) a b ↔ Hosts m a b ∨ (a = n ∧ b = s) := by
  unfold Hosts
  induction m with
  | nil =>
    simp only [NodeServiceMap.insert, List.mem_singleton, Prod.mk.injEq, List.not_mem_nil, false_and,
      exists_false, false_or]
    constructor
    · rintro ⟨ss, ⟨rfl, rfl⟩, h⟩; exact ⟨rfl, by simpa using h⟩
    · rintro ⟨rfl, rfl⟩; exact ⟨_, ⟨rfl, rfl⟩, by simp⟩
  | cons e m ih =>
    obtain ⟨k, ks⟩ := e
    rw [NodeServiceMap.insert]
    split
    · rename_i hk
      subst hk
      simp only [List.mem_cons, Prod.mk.injEq]
      constructor
      · rintro ⟨ss, (⟨rfl, rfl⟩ | h), hb⟩
        · split at hb
          · exact Or.inl ⟨ks, Or.inl ⟨rfl, rfl⟩, hb⟩
          · rcases List.mem_cons.1 hb with rfl | hb
            · exact Or.inr ⟨rfl, rfl⟩
            · exact Or.inl ⟨ks, Or.inl ⟨rfl, rfl⟩, hb⟩
        · exact Or.inl ⟨ss, Or.inr h, hb⟩
      · rintro (⟨ss, (⟨rfl, rfl⟩ | h), hb⟩ | ⟨rfl, rfl⟩)
        · refine ⟨_, Or.inl ⟨rfl, rfl⟩, ?_⟩
          split
          · exact hb
          · exact List.mem_cons_of_mem _ hb
        · exact ⟨ss, Or.inr h, hb⟩
        · refine ⟨_, Or.inl ⟨rfl, rfl⟩, ?_⟩
          split
          · assumption
          · simp
    · simp only [List.mem_cons, or_and_right, exists_or]
      rw [ih]
      simp only [or_assoc]

/-! #### bundles -/

theorem placeBundleServices_ok {node : Str} {ss : List Str} {st st' : State}
    (h : placeBundleServices node ss st = .ok st') :
    st'.idle = st.idle ∧ (∀ s ∈ ss, s ∈ st.unplaced) ∧ ss.Nodup ∧
    (∀ x, x ∈ st'.unplaced ↔ x ∈ st.unplaced ∧ x ∉ ss) ∧
    (∀ a b, Hosts st'.placed a b ↔ Hosts st.placed a b ∨ (a = node ∧ b ∈ ss)) := by
  induction ss generalizing st with
  | nil =>
    simp only [placeBundleServices, Outcome.ok.injEq] at h
    subst h
    simp
  | cons s ss ih =>
    rw [placeBundleServices] at h
    split at h
    · rename_i hs
      obtain ⟨h1, h2, h3, h4, h5⟩ := ih h
      refine ⟨h1, ?_, ?_, ?_, ?_⟩
      · intro x hx
        rcases List.mem_cons.1 hx with rfl | hx
        · exact hs
        · exact (List.mem_filter.1 (h2 x hx)).1
      · rw [List.nodup_cons]
        refine ⟨fun hm => ?_, h3⟩
        have := h2 s hm
        simp at this
      · intro x
        rw [h4 x]
        simp only [List.mem_filter, decide_eq_true_eq, List.mem_cons, not_or, ne_eq]
        constructor
        · rintro ⟨⟨a, b⟩, c⟩; exact ⟨a, b, c⟩
        · rintro ⟨a, b, c⟩; exact ⟨⟨a, b⟩, c⟩
      · intro a b
        rw [h5 a b]
        simp only [hosts_insert, List.mem_cons]
        constructor
        · rintro ((h | ⟨h, h'⟩) | ⟨h, h'⟩)
          · exact Or.inl h
          · exact Or.inr ⟨h, Or.inl h'⟩
          · exact Or.inr ⟨h, Or.inr h'⟩
        · rintro (h | ⟨h, (h' | h')⟩)
          · exact Or.inl (Or.inl h)
          · exact Or.inl (Or.inr ⟨h, h'⟩)
          · exact Or.inr ⟨h, h'⟩
    · cases h

theorem placeBundleServices_complete {node : Str} {ss : List Str} {st : State}
    (h1 : ∀ s ∈ ss, s ∈ st.unplaced) (h2 : ss.Nodup) :
    ∃ st', placeBundleServices node ss st = .ok st' := by
  induction ss generalizing st with
  | nil => exact ⟨_, rfl⟩
  | cons s ss ih =>
    rw [placeBundleServices, if_pos (h1 s (by simp))]
    rw [List.nodup_cons] at h2
    refine ih ?_ h2.2
    intro x hx
    simp only [List.mem_filter, decide_eq_true_eq]
    exact ⟨h1 x (by simp [hx]), fun h => h2.1 (h ▸ hx)⟩

theorem placeBundleServices_verdict (node : Str) (ss : List Str) (st : State) :
    (∃ st', placeBundleServices node ss st = .ok st') ∨
      ∃ m, placeBundleServices node ss st = .error m := by
  induction ss generalizing st with
  | nil => exact Or.inl ⟨_, rfl⟩
  | cons s ss ih =>
    rw [placeBundleServices]
    split
    · exact ih _
    · exact Or.inr ⟨_, rfl⟩

theorem placeBundles_verdict (bs : List (Str × List Str)) (st : State) :
    (∃ st', placeBundles bs st = .ok st') ∨ ∃ m, placeBundles bs st = .error m := by
  induction bs generalizing st with
  | nil => exact Or.inl ⟨_, rfl⟩
  | cons e bs ih =>
    obtain ⟨n, ss⟩ := e
    rw [placeBundles]
    rcases placeBundleServices_verdict n ss st with ⟨st', h⟩ | ⟨m, h⟩
    · rw [h]
      simp only
      split
      · exact ih _
      · exact Or.inr ⟨_, rfl⟩
    · rw [h]; exact Or.inr ⟨_, rfl⟩

theorem nodup_filter' {l : List Str} (h : l.Nodup) (p : Str → Bool) : (l.filter p).Nodup :=
  h.sublist List.filter_sublist

theorem placeBundles_ok {bs : List (Str × List Str)} {st st' : State}
    (h : placeBundles bs st = .ok st') (hid : st.idle.Nodup) :
    (bs.map (·.1)).Nodup ∧ (∀ b ∈ bs, b.1 ∈ st.idle) ∧
    (bs.flatMap (·.2)).Nodup ∧ (∀ s ∈ bs.flatMap (·.2), s ∈ st.unplaced) ∧
    st'.idle.Nodup ∧
    (∀ n, n ∈ st'.idle ↔ n ∈ st.idle ∧ n ∉ bs.map (·.1)) ∧
    (∀ x, x ∈ st'.unplaced ↔ x ∈ st.unplaced ∧ x ∉ bs.flatMap (·.2)) ∧
    (∀ a b, Hosts st'.placed a b ↔ Hosts st.placed a b ∨ ∃ ss, (a, ss) ∈ bs ∧ b ∈ ss) := by
  induction bs generalizing st with
  | nil =>
    simp only [placeBundles, Outcome.ok.injEq] at h
    subst h
    simp [hid]
  | cons e bs ih =>
    obtain ⟨n, ss⟩ := e
    rw [placeBundles] at h
    cases h1 : placeBundleServices n ss st with
    | error m => rw [h1] at h; cases h
    | ub => rw [h1] at h; cases h
    | crash => rw [h1] at h; cases h
    | ok st1 =>
      rw [h1] at h
      simp only at h
      split at h
      · rename_i hn
        obtain ⟨a1, a2, a3, a4, a5⟩ := placeBundleServices_ok h1
        obtain ⟨b1, b2, b3, b4, b5, b6, b7, b8⟩ := ih h (nodup_filter' (by rw [a1]; exact hid) _)
        simp only at b2 b4 b6 b7 b8
        rw [a1] at hn
        refine ⟨?_, ?_, ?_, ?_, b5, ?_, ?_, ?_⟩
        · rw [List.map_cons, List.nodup_cons]
          refine ⟨fun hm => ?_, b1⟩
          obtain ⟨b, hb, he⟩ := List.mem_map.1 hm
          have := b2 b hb
          simp only [List.mem_filter, decide_eq_true_eq, ne_eq] at this
          exact this.2 he
        · intro b hb
          rcases List.mem_cons.1 hb with rfl | hb
          · exact hn
          · have := (List.mem_filter.1 (b2 b hb)).1
            rw [a1] at this; exact this
        · rw [List.flatMap_cons, List.nodup_append]
          refine ⟨a3, b3, ?_⟩
          rintro x hx y hy rfl
          exact ((a4 x).1 (b4 x hy)).2 hx
        · intro s hs
          rw [List.flatMap_cons, List.mem_append] at hs
          rcases hs with hs | hs
          · exact a2 s hs
          · exact ((a4 s).1 (b4 s hs)).1
        · intro x
          rw [b6 x, List.map_cons, List.mem_cons]
          simp only [List.mem_filter, decide_eq_true_eq, ne_eq, a1, not_or]
          constructor
          · rintro ⟨⟨a, b⟩, c⟩; exact ⟨a, b, c⟩
          · rintro ⟨a, b, c⟩; exact ⟨⟨a, b⟩, c⟩
        · intro x
          rw [b7 x, a4 x, List.flatMap_cons, List.mem_append, not_or, and_assoc]
        · intro a b
          rw [b8 a b, a5 a b]
          simp only [List.mem_cons, Prod.mk.injEq]
          constructor
          · rintro ((h | ⟨rfl, hbs⟩) | ⟨ss', h, h'⟩)
            · exact Or.inl h
            · exact Or.inr ⟨ss, Or.inl ⟨rfl, rfl⟩, hbs⟩
            · exact Or.inr ⟨ss', Or.inr h, h'⟩
          · rintro (h | ⟨ss', (⟨rfl, rfl⟩ | h), h'⟩)
            · exact Or.inl (Or.inl h)
            · exact Or.inl (Or.inr ⟨rfl, h'⟩)
            · exact Or.inr ⟨ss', h, h'⟩
      · cases h

theorem placeBundles_complete {bs : List (Str × List Str)} {st : State}
    (h1 : (bs.map (·.1)).Nodup) (h2 : ∀ b ∈ bs, b.1 ∈ st.idle)
    (h3 : (bs.flatMap (·.2)).Nodup) (h4 : ∀ s ∈ bs.flatMap (·.2), s ∈ st.unplaced) :
    ∃ st', placeBundles bs st = .ok st' := by
  induction bs generalizing st with
  | nil => exact ⟨_, rfl⟩
  | cons e bs ih =>
    obtain ⟨n, ss⟩ := e
    rw [List.flatMap_cons, List.nodup_append] at h3
    obtain ⟨st1, hst⟩ := placeBundleServices_complete (node := n) (ss := ss) (st := st)
      (fun s hs => h4 s (by rw [List.flatMap_cons, List.mem_append]; exact Or.inl hs)) h3.1
    obtain ⟨a1, a2, a3, a4, a5⟩ := placeBundleServices_ok hst
    rw [placeBundles, hst]
    simp only
    rw [if_pos (by rw [a1]; exact h2 (n, ss) (by simp))]
    rw [List.map_cons, List.nodup_cons] at h1
    refine ih h1.2 ?_ h3.2.1 ?_
    · intro b hb
      simp only [List.mem_filter, decide_eq_true_eq, ne_eq, a1]
      exact ⟨h2 b (by simp [hb]), fun he => h1.1 (List.mem_map.2 ⟨b, hb, he⟩)⟩
    · intro s hs
      rw [a4 s]
      exact ⟨h4 s (by rw [List.flatMap_cons, List.mem_append]; exact Or.inr hs),
        fun h => h3.2.2 s h s hs rfl⟩

/-! #### constraint resolution -/

theorem find_set (m : List (Str × ConstraintList)) (k x : Str) (v : ConstraintList) :
    findConstraint (setConstraint m k v) x = if k = x then some v else findConstraint m x := by
  induction m with
  | nil => simp [setConstraint, findConstraint]
  | cons e m ih =>
    obtain ⟨a, w⟩ := e
    rw [setConstraint]
    by_cases h : a = k
    · subst h
      rw [if_pos rfl, findConstraint, findConstraint]
      by_cases hx : a = x <;> simp [hx]
    · rw [if_neg h, findConstraint, findConstraint, ih]
      by_cases hx : k = x
      · subst hx; simp [h]
      · simp [hx]

theorem find_none {m : List (Str × ConstraintList)} {x : Str} :
    findConstraint m x = none ↔ ∀ cl, (x, cl) ∉ m := by
  induction m with
  | nil => simp [findConstraint]
  | cons e m ih =>
    obtain ⟨a, w⟩ := e
    rw [findConstraint]
    by_cases h : a = x
    · subst h
      rw [if_pos rfl]
      simp only [reduceCtorEq, false_iff, Classical.not_forall]
      exact ⟨w, by simp⟩
    · rw [if_neg h, ih]
      constructor
      · intro hx cl hm
        rcases List.mem_cons.1 hm with he | hm
        · exact h (Prod.mk.inj he).1.symm
        · exact hx cl hm
      · intro hx cl hm
        exact hx cl (List.mem_cons_of_mem _ hm)

theorem find_some_mem {m : List (Str × ConstraintList)} {x : Str} {cl : ConstraintList}
    (h : findConstraint m x = some cl) : (x, cl) ∈ m := by
  induction m with
  | nil => cases h
  | cons e m ih =>
    obtain ⟨a, w⟩ := e
    rw [findConstraint] at h
    split at h
    · rename_i he
      subst he
      cases h
      simp
    · exact List.mem_cons_of_mem _ (ih h)

theorem find_wildcard (glob : Str → Str → Bool) (given : List (Str × ConstraintList)) (key : Str)
    (v : ConstraintList) (services : List Str) (m : List (Str × ConstraintList)) (x : Str) :
    findConstraint (applyWildcard glob given key v services m) x
      = if x ∈ services ∧ glob key x = true ∧ findConstraint given x = none then some v
        else findConstraint m x := by
  unfold applyWildcard
  induction services generalizing m with
  | nil => simp
  | cons s ss ih =>
    rw [List.foldl_cons, ih]
    by_cases hA : x ∈ ss ∧ glob key x = true ∧ findConstraint given x = none
    · rw [if_pos hA, if_pos ⟨by simp [hA.1], hA.2⟩]
    · rw [if_neg hA]
      by_cases hB : x ∈ s :: ss ∧ glob key x = true ∧ findConstraint given x = none
      · rw [if_pos hB]
        have hxs : x = s := by
          rcases List.mem_cons.1 hB.1 with h | h
          · exact h
          · exact absurd ⟨h, hB.2⟩ hA
        subst hxs
        rw [if_pos hB.2.1, hB.2.2]
        simp [find_set]
      · rw [if_neg hB]
        split
        · rename_i hg
          split
          · rfl
          · rename_i hs
            rw [find_set, if_neg]
            rintro rfl
            exact hB ⟨by simp, hg, by simpa using hs⟩
        · rfl

/-- State of the resolution after the constraints in `done` have been looked at, for a service
without a star. -/
theorem resolve_inv (glob : Str → Str → Bool) (given : List (Str × ConstraintList))
    (services : List Str) (x : Str) (hx : x ∈ services) (hstar : '*' ∉ x)
    (done : List (Str × ConstraintList)) (hsub : ∀ e ∈ done, e ∈ given)
    (m0 : List (Str × ConstraintList)) :
    let m := done.foldl (fun m (e : Str × ConstraintList) =>
      if '*' ∈ e.1 then applyWildcard glob given e.1 e.2 services m else setConstraint m e.1 e.2) m0
    (∀ cl, findConstraint m x = some cl → findConstraint m0 x = some cl ∨ (x, cl) ∈ done ∨
      (findConstraint given x = none ∧
        ∃ pat, (pat, cl) ∈ done ∧ '*' ∈ pat ∧ glob pat x = true)) ∧
    (findConstraint m x = none → findConstraint m0 x = none ∧ (∀ cl, (x, cl) ∉ done) ∧
      (findConstraint given x = none → ∀ pat cl, (pat, cl) ∈ done → '*' ∈ pat → glob pat x = false)) := by
  induction done generalizing m0 with
  | nil => simp
  | cons e done ih =>
    obtain ⟨k, v⟩ := e
    have hk : ∀ e ∈ done, e ∈ given := fun e he => hsub e (by simp [he])
    obtain ⟨i1, i2⟩ := ih hk (if '*' ∈ k then applyWildcard glob given k v services m0
      else setConstraint m0 k v)
    simp only [List.foldl_cons]
    by_cases hs : '*' ∈ k
    · rw [if_pos hs] at i1 i2
      simp only [if_pos hs]
      rw [find_wildcard] at i1 i2
      constructor
      · intro cl hf
        rcases i1 cl hf with h | h | ⟨h, pat, hp, h'⟩
        · split at h
          · rename_i hc
            cases h
            exact Or.inr (Or.inr ⟨hc.2.2, k, by simp, hs, hc.2.1⟩)
          · exact Or.inl h
        · exact Or.inr (Or.inl (List.mem_cons_of_mem _ h))
        · exact Or.inr (Or.inr ⟨h, pat, List.mem_cons_of_mem _ hp, h'⟩)
      · intro hf
        obtain ⟨h1, h2, h3⟩ := i2 hf
        split at h1
        · cases h1
        · rename_i hc
          refine ⟨h1, ?_, ?_⟩
          · intro cl hm
            rcases List.mem_cons.1 hm with he | hm
            · have : x = k := (Prod.mk.inj he).1
              exact hstar (this ▸ hs)
            · exact h2 cl hm
          · intro hg pat cl hm hp
            rcases List.mem_cons.1 hm with he | hm
            · have : pat = k := (Prod.mk.inj he).1
              subst this
              cases hgl : glob pat x with
              | false => rfl
              | true => exact absurd ⟨hx, hgl, hg⟩ hc
            · exact h3 hg pat cl hm hp
    · rw [if_neg hs] at i1 i2
      simp only [if_neg hs]
      rw [find_set] at i1 i2
      constructor
      · intro cl hf
        rcases i1 cl hf with h | h | ⟨h, pat, hp, h'⟩
        · split at h
          · rename_i hc
            cases h
            subst hc
            exact Or.inr (Or.inl (by simp))
          · exact Or.inl h
        · exact Or.inr (Or.inl (List.mem_cons_of_mem _ h))
        · exact Or.inr (Or.inr ⟨h, pat, List.mem_cons_of_mem _ hp, h'⟩)
      · intro hf
        obtain ⟨h1, h2, h3⟩ := i2 hf
        split at h1
        · cases h1
        · rename_i hc
          refine ⟨h1, ?_, ?_⟩
          · intro cl hm
            rcases List.mem_cons.1 hm with he | hm
            · exact hc (Prod.mk.inj he).1.symm
            · exact h2 cl hm
          · intro hg pat cl hm hp
            rcases List.mem_cons.1 hm with he | hm
            · exact absurd ((Prod.mk.inj he).1 ▸ hp) hs
            · exact h3 hg pat cl hm hp

theorem resolve_spec (glob : Str → Str → Bool) (p : Problem) (hw : WellFormed p) (x : Str)
    (hx : x ∈ p.services) :
    (∀ cl, findConstraint (resolveConstraints glob p) x = some cl → ConstraintFor glob p x cl) ∧
    (findConstraint (resolveConstraints glob p) x = none → ∀ cl, ¬ ConstraintFor glob p x cl) := by
  have hst := hw.noStar x hx
  obtain ⟨h1, h2⟩ := resolve_inv glob p.serviceConstraints p.services x hx hst p.serviceConstraints
    (fun e he => he) []
  constructor
  · intro cl hf
    rcases h1 cl hf with h | h | ⟨h, pat, hp, hs, hg⟩
    · cases h
    · exact Or.inl ⟨h, hst⟩
    · exact Or.inr ⟨find_none.1 h, pat, hp, hs, hg⟩
  · intro hf cl hc
    obtain ⟨_, h3, h4⟩ := h2 hf
    rcases hc with ⟨h, _⟩ | ⟨h, pat, hp, hs, hg⟩
    · exact h3 cl h
    · have := h4 (find_none.2 h) pat cl hp hs
      rw [this] at hg; cases hg

/-! #### constrained services -/

theorem firstFit_some {nodes : List (Str × List Attribute)} {cl : ConstraintList} {idle : List Str}
    {n : Str} (h : firstFit nodes cl idle = .ok (some n)) :
    n ∈ idle ∧ SatisfiesAll (attributesOf nodes n) cl := by
  induction idle with
  | nil => cases h
  | cons a idle ih =>
    rw [firstFit] at h
    cases hc : checkConstraintList cl (attributesOf nodes a) with
    | ok b =>
      rw [hc] at h
      cases b with
      | true =>
        simp only [Outcome.ok.injEq, Option.some.injEq] at h
        subst h
        exact ⟨by simp, (checkList_sound hc).1 rfl⟩
      | false => obtain ⟨h1, h2⟩ := ih h; exact ⟨by simp [h1], h2⟩
    | error m => rw [hc] at h; cases h
    | ub => rw [hc] at h; cases h
    | crash => rw [hc] at h; cases h

theorem placeConstrained_ok {nodes : List (Str × List Attribute)}
    {cs : List (Str × ConstraintList)} {services : List Str} {st st' : State}
    (h : placeConstrained nodes cs services st = .ok st') (hid : st.idle.Nodup) :
    ∃ A : List (Str × Str),
      A.map (·.1) = services.filter (fun s => (findConstraint cs s).isSome) ∧
      (A.map (·.2)).Nodup ∧ (∀ n ∈ A.map (·.2), n ∈ st.idle) ∧
      (∀ e ∈ A, ∃ cl, findConstraint cs e.1 = some cl ∧ SatisfiesAll (attributesOf nodes e.2) cl) ∧
      st'.idle.Nodup ∧
      (∀ n, n ∈ st'.idle ↔ n ∈ st.idle ∧ n ∉ A.map (·.2)) ∧
      (∀ x, x ∈ st'.unplaced ↔ x ∈ st.unplaced ∧ x ∉ A.map (·.1)) ∧
      (∀ a b, Hosts st'.placed a b ↔ Hosts st.placed a b ∨ (b, a) ∈ A) := by
  induction services generalizing st with
  | nil =>
    simp only [placeConstrained, Outcome.ok.injEq] at h
    subst h
    exact ⟨[], by simp [hid]⟩
  | cons s services ih =>
    rw [placeConstrained] at h
    cases hf : findConstraint cs s with
    | none =>
      rw [hf] at h
      obtain ⟨A, h1, hr⟩ := ih h hid
      exact ⟨A, by simp [h1, hf], hr⟩
    | some cl =>
      rw [hf] at h
      simp only at h
      cases hff : firstFit nodes cl st.idle with
      | error m => rw [hff] at h; cases h
      | ub => rw [hff] at h; cases h
      | crash => rw [hff] at h; cases h
      | ok o =>
        rw [hff] at h
        cases o with
        | none => cases h
        | some n =>
          obtain ⟨hn, hsat⟩ := firstFit_some hff
          obtain ⟨A, h1, h2, h3, h4, h5, h6, h7, h8⟩ := ih h (nodup_filter' hid _)
          simp only [List.mem_filter, decide_eq_true_eq, ne_eq] at h3 h6 h7
          refine ⟨(s, n) :: A, by simp [h1, hf], ?_, ?_, ?_, h5, ?_, ?_, ?_⟩
          · rw [List.map_cons, List.nodup_cons]
            exact ⟨fun hm => (h3 n hm).2 rfl, h2⟩
          · intro x hx
            rw [List.map_cons] at hx
            rcases List.mem_cons.1 hx with rfl | hx
            · exact hn
            · exact (h3 x hx).1
          · intro e he
            rcases List.mem_cons.1 he with rfl | he
            · exact ⟨cl, hf, hsat⟩
            · exact h4 e he
          · intro x
            rw [h6 x, List.map_cons, List.mem_cons, not_or, and_assoc]
          · intro x
            rw [h7 x, List.map_cons, List.mem_cons, not_or, and_assoc]
          · intro a b
            rw [h8 a b, hosts_insert, List.mem_cons, Prod.mk.injEq, or_assoc, and_comm (a := a = n)]

theorem placeRemaining_ok {rem idle : List Str} {m m' : NodeServiceMap}
    (h : placeRemaining rem idle m false = .ok m') :
    rem.length ≤ idle.length ∧
    ∀ a b, Hosts m' a b ↔ Hosts m a b ∨ (b, a) ∈ rem.zip idle := by
  induction rem generalizing idle m with
  | nil =>
    simp only [placeRemaining, Bool.false_eq_true, if_false, Outcome.ok.injEq] at h
    subst h
    simp
  | cons s rem ih =>
    cases idle with
    | nil =>
      exfalso
      rw [placeRemaining] at h
      have : ∀ (rem : List Str) (m : NodeServiceMap), placeRemaining rem [] m true ≠ .ok m' := by
        intro rem
        induction rem with
        | nil => intro m h; simp [placeRemaining] at h
        | cons s rem ih => intro m h; rw [placeRemaining] at h; exact ih m h
      exact this _ _ h
    | cons n idle =>
      rw [placeRemaining] at h
      obtain ⟨h1, h2⟩ := ih h
      refine ⟨by simpa using h1, ?_⟩
      intro a b
      rw [h2 a b, hosts_insert, List.zip_cons_cons, List.mem_cons, Prod.mk.injEq, or_assoc,
        and_comm (a := a = n)]

theorem placeRemaining_complete {rem idle : List Str} {m : NodeServiceMap}
    (h : rem.length ≤ idle.length) : ∃ m', placeRemaining rem idle m false = .ok m' := by
  induction rem generalizing idle m with
  | nil => exact ⟨m, by simp [placeRemaining]⟩
  | cons s rem ih =>
    cases idle with
    | nil => simp at h
    | cons n idle =>
      rw [placeRemaining]
      exact ih (by simpa using h)

theorem zip_map_fst (a b : List Str) (h : a.length ≤ b.length) : (a.zip b).map (·.1) = a := by
  rw [List.map_fst_zip (by omega)]

theorem zip_snd_sublist (a b : List Str) : ((a.zip b).map (·.2)).Sublist b := by
  induction a generalizing b with
  | nil => simp
  | cons x a ih =>
    cases b with
    | nil => simp
    | cons y b => simpa using (ih b)

/-- Everything a successful run of the solver guarantees. -/
theorem solver_ok {glob : Str → Str → Bool} {p : Problem} (hw : WellFormed p) {m : NodeServiceMap}
    (h : constraintSolver glob p = .ok m) :
    (∀ b ∈ p.bundles, b.1 ∈ p.nodes.map (·.1)) ∧
    (p.bundles.flatMap (·.2)).Nodup ∧ (∀ s ∈ p.bundles.flatMap (·.2), s ∈ p.services) ∧
    ∃ A : List (Str × Str),
      (A.map (·.2)).Nodup ∧
      (∀ n ∈ A.map (·.2), n ∈ p.nodes.map (·.1) ∧ n ∉ p.bundles.map (·.1)) ∧
      (A.map (·.1)).Nodup ∧
      (∀ x, x ∈ A.map (·.1) ↔ x ∈ p.services ∧
        ((∃ cl, ConstraintFor glob p x cl) ∨ x ∉ p.bundles.flatMap (·.2))) ∧
      (∀ e ∈ A, (∃ cl, ConstraintFor glob p e.1 cl) →
        ∃ cl, ConstraintFor glob p e.1 cl ∧ SatisfiesAll (attributesOf p.nodes e.2) cl) ∧
      (∀ a b, Hosts m a b ↔ Bundled p a b ∨ (b, a) ∈ A) := by
  unfold constraintSolver at h
  cases hb : placeBundles p.bundles { unplaced := p.services, idle := p.nodes.map (·.1), placed := [] } with
  | error m => rw [hb] at h; cases h
  | ub => rw [hb] at h; cases h
  | crash => rw [hb] at h; cases h
  | ok st =>
    rw [hb] at h
    obtain ⟨_, b2, b3, b4, b5, b6, b7, b8⟩ := placeBundles_ok hb hw.nodes
    simp only at b2 b4 b6 b7 b8 h
    refine ⟨b2, b3, b4, ?_⟩
    cases hc : placeConstrained p.nodes (resolveConstraints glob p) p.services st with
    | error m => rw [hc] at h; cases h
    | ub => rw [hc] at h; cases h
    | crash => rw [hc] at h; cases h
    | ok st' =>
      rw [hc] at h
      simp only at h
      obtain ⟨A, c1, c2, c3, c4, c5, c6, c7, c8⟩ := placeConstrained_ok hc b5
      have hosts0 : ∀ a b, Hosts st.placed a b ↔ Bundled p a b := by
        intro a b
        rw [b8 a b]
        simp [Hosts, Bundled]
      have hfor : ∀ x ∈ p.services, ((findConstraint (resolveConstraints glob p) x).isSome ↔
          ∃ cl, ConstraintFor glob p x cl) := by
        intro x hx
        obtain ⟨r1, r2⟩ := resolve_spec glob p hw x hx
        cases hf : findConstraint (resolveConstraints glob p) x with
        | none =>
          simp only [Option.isSome_none, Bool.false_eq_true, false_iff, not_exists]
          exact r2 hf
        | some cl =>
          simp only [Option.isSome_some, true_iff]
          exact ⟨cl, r1 cl hf⟩
      have hA1 : ∀ x, x ∈ A.map (·.1) ↔ x ∈ p.services ∧ ∃ cl, ConstraintFor glob p x cl := by
        intro x
        rw [c1, List.mem_filter]
        constructor
        · rintro ⟨h1, h2⟩; exact ⟨h1, (hfor x h1).1 h2⟩
        · rintro ⟨h1, h2⟩; exact ⟨h1, (hfor x h1).2 h2⟩
      have hA1n : (A.map (·.1)).Nodup := by rw [c1]; exact nodup_filter' hw.services _
      have hAsat : ∀ e ∈ A, ∃ cl, ConstraintFor glob p e.1 cl ∧
          SatisfiesAll (attributesOf p.nodes e.2) cl := by
        intro e he
        obtain ⟨cl, h1, h2⟩ := c4 e he
        have hmem : e.1 ∈ p.services := ((hA1 e.1).1 (List.mem_map.2 ⟨e, he, rfl⟩)).1
        exact ⟨cl, (resolve_spec glob p hw e.1 hmem).1 cl h1, h2⟩
      have hnode : ∀ n, n ∈ st.idle → n ∈ p.nodes.map (·.1) ∧ n ∉ p.bundles.map (·.1) :=
        fun n hn => (b6 n).1 hn
      split at h
      · rename_i hempty
        simp only [Outcome.ok.injEq] at h
        subst h
        refine ⟨A, c2, fun n hn => hnode n (c3 n hn), hA1n, ?_, fun e he _ => hAsat e he, ?_⟩
        · intro x
          rw [hA1 x]
          constructor
          · rintro ⟨h1, h2⟩; exact ⟨h1, Or.inl h2⟩
          · rintro ⟨h1, h2⟩
            refine ⟨h1, ?_⟩
            rcases h2 with h2 | h2
            · exact h2
            · apply Classical.byContradiction
              intro hno
              have : x ∈ st'.unplaced :=
                (c7 x).2 ⟨(b7 x).2 ⟨h1, h2⟩, fun hm => hno ((hA1 x).1 hm).2⟩
              rw [hempty] at this
              simp at this
        · intro a b; rw [c8 a b, hosts0]
      · obtain ⟨r1, r2⟩ := placeRemaining_ok h
        have hz1 := zip_map_fst _ _ r1
        have hz2 := zip_snd_sublist (p.services.filter (· ∈ st'.unplaced)) st'.idle
        have hunp : ∀ x, x ∈ st'.unplaced ↔ x ∈ p.services ∧ x ∉ p.bundles.flatMap (·.2) ∧
            ¬ ∃ cl, ConstraintFor glob p x cl := by
          intro x
          rw [c7 x, b7 x, hA1 x]
          constructor
          · rintro ⟨⟨h1, h2⟩, h3⟩; exact ⟨h1, h2, fun h => h3 ⟨h1, h⟩⟩
          · rintro ⟨h1, h2, h3⟩; exact ⟨⟨h1, h2⟩, fun h => h3 h.2⟩
        generalize hR : (p.services.filter (· ∈ st'.unplaced)).zip st'.idle = R at r2 hz1 hz2
        have hR1 : ∀ x, x ∈ R.map (·.1) ↔ x ∈ p.services ∧ x ∉ p.bundles.flatMap (·.2) ∧
            ¬ ∃ cl, ConstraintFor glob p x cl := by
          intro x
          rw [hz1, List.mem_filter, decide_eq_true_eq, hunp x]
          constructor
          · exact fun h => h.2
          · exact fun h => ⟨h.1, h⟩
        have hR2 : ∀ n ∈ R.map (·.2), n ∈ st.idle ∧ n ∉ A.map (·.2) := fun n hn =>
          (c6 n).1 (hz2.subset hn)
        refine ⟨A ++ R, ?_, ?_, ?_, ?_, ?_, ?_⟩
        · rw [List.map_append, List.nodup_append]
          refine ⟨c2, c5.sublist hz2, ?_⟩
          rintro a ha b hb rfl
          exact (hR2 a hb).2 ha
        · intro n hn
          rw [List.map_append, List.mem_append] at hn
          rcases hn with hn | hn
          · exact hnode n (c3 n hn)
          · exact hnode n (hR2 n hn).1
        · rw [List.map_append, List.nodup_append]
          refine ⟨hA1n, ?_, ?_⟩
          · rw [hz1]; exact nodup_filter' hw.services _
          · rintro a ha b hb rfl
            exact ((hR1 a).1 hb).2.2 ((hA1 a).1 ha).2
        · intro x
          rw [List.map_append, List.mem_append, hA1 x, hR1 x]
          constructor
          · rintro (⟨h1, h2⟩ | ⟨h1, h2, _⟩)
            · exact ⟨h1, Or.inl h2⟩
            · exact ⟨h1, Or.inr h2⟩
          · rintro ⟨h1, h2⟩
            by_cases hcl : ∃ cl, ConstraintFor glob p x cl
            · exact Or.inl ⟨h1, hcl⟩
            · rcases h2 with h2 | h2
              · exact absurd h2 hcl
              · exact Or.inr ⟨h1, h2, hcl⟩
        · intro e he hcl
          rw [List.mem_append] at he
          rcases he with he | he
          · exact hAsat e he
          · exact absurd hcl ((hR1 e.1).1 (List.mem_map.2 ⟨e, he, rfl⟩)).2.2
        · intro a b
          rw [r2 a b, c8 a b, hosts0, List.mem_append, or_assoc]

/-- Pigeonhole: a list without repetitions inside another list is not longer. -/
theorem nodup_length_le {a b : List Str} (ha : a.Nodup) (h : ∀ x ∈ a, x ∈ b) :
    a.length ≤ b.length := by
  induction a generalizing b with
  | nil => simp
  | cons x a ih =>
    rw [List.nodup_cons] at ha
    have hxb := h x (by simp)
    have : a.length ≤ (b.erase x).length := by
      refine ih ha.2 ?_
      intro y hy
      have hne : y ≠ x := fun he => ha.1 (he ▸ hy)
      rw [List.mem_erase_of_ne hne]
      exact h y (by simp [hy])
    rw [List.length_erase_of_mem hxb] at this
    have : 0 < b.length := List.length_pos_of_mem hxb
    simp only [List.length_cons]
    omega

/-- Elements of pairs with distinct seconds. -/
theorem fst_unique {A : List (Str × Str)} (h : (A.map (·.2)).Nodup) {a b n : Str}
    (ha : (a, n) ∈ A) (hb : (b, n) ∈ A) : a = b := by
  induction A with
  | nil => simp at ha
  | cons e A ih =>
    rw [List.map_cons, List.nodup_cons] at h
    rcases List.mem_cons.1 ha with h1 | h1 <;> rcases List.mem_cons.1 hb with h2 | h2
    · exact (Prod.mk.inj (h1.trans h2.symm)).1
    · exact absurd (List.mem_map.2 ⟨_, h2, by rw [← h1]⟩) h.1
    · exact absurd (List.mem_map.2 ⟨_, h1, by rw [← h2]⟩) h.1
    · exact ih h.2 h1 h2

theorem snd_unique {A : List (Str × Str)} (h : (A.map (·.1)).Nodup) {a n n' : Str}
    (ha : (a, n) ∈ A) (hb : (a, n') ∈ A) : n = n' := by
  induction A with
  | nil => simp at ha
  | cons e A ih =>
    rw [List.map_cons, List.nodup_cons] at h
    rcases List.mem_cons.1 ha with h1 | h1 <;> rcases List.mem_cons.1 hb with h2 | h2
    · exact (Prod.mk.inj (h1.trans h2.symm)).2
    · exact absurd (List.mem_map.2 ⟨_, h2, by rw [← h1]⟩) h.1
    · exact absurd (List.mem_map.2 ⟨_, h1, by rw [← h2]⟩) h.1
    · exact ih h.2 h1 h2

theorem flat_unique {bs : List (Str × List Str)} (h : (bs.flatMap (·.2)).Nodup) {n n' s : Str}
    {ss ss' : List Str} (h1 : (n, ss) ∈ bs) (h2 : s ∈ ss) (h3 : (n', ss') ∈ bs) (h4 : s ∈ ss') :
    n = n' := by
  induction bs with
  | nil => simp at h1
  | cons e bs ih =>
    rw [List.flatMap_cons, List.nodup_append] at h
    obtain ⟨g1, g2, g3⟩ := h
    rcases List.mem_cons.1 h1 with k1 | k1 <;> rcases List.mem_cons.1 h3 with k2 | k2
    · exact (Prod.mk.inj (k1.trans k2.symm)).1
    · exact absurd rfl (g3 s (by rw [← k1]; exact h2) s (List.mem_flatMap.2 ⟨_, k2, h4⟩))
    · exact absurd rfl (g3 s (by rw [← k2]; exact h4) s (List.mem_flatMap.2 ⟨_, k1, h2⟩))
    · exact ih g2 k1 k2

end Distbench.Placement
