import Verif.Lemmas.WholeText
import Verif.Props.Report

/-! Lemmas for Props/Whole.lean: the engines of a test and their names in its results. -/

namespace Distbench.Whole
open Tables Services Spec

theorem places_length (cfg : Config) :
    (places cfg).length = (cfg.services.map fun s => (s.count.getD 0).toNat).sum := by
  unfold places
  rw [List.length_flatMap]
  congr 1
  apply map_zipIdx_congr
  intro i s _
  rw [List.length_map, List.length_range]
  rfl

theorem places_nodup (cfg : Config) : (places cfg).Nodup := by
  unfold places List.Nodup
  rw [List.pairwise_flatMap]
  constructor
  · intro s _
    rw [List.pairwise_map]
    exact List.nodup_range.imp fun h h' => h (by cases h'; rfl)
  · have h : (cfg.services.zipIdx.map Prod.snd).Nodup := by
      rw [List.zipIdx_map_snd]
      exact List.nodup_range'
    unfold List.Nodup at h
    rw [List.pairwise_map] at h
    refine h.imp fun {a b} hab x hx y hy hxy => hab ?_
    obtain ⟨n, -, rfl⟩ := List.mem_map.1 hx
    obtain ⟨m, -, rfl⟩ := List.mem_map.1 hy
    injection hxy

theorem instanceNames {s raw : ServiceSpec} (hf : FieldsFit raw) (hc : getCanonicalServiceSpec raw = .ok s)
    (hn : '/' ∉ s.name) :
    ∃ l, serviceInstanceNames s = some l ∧ l.length = s.getCount.toNat ∧
      ∀ i : Nat, i < s.getCount.toNat → ∃ x, l[i]? = some x ∧ getInstanceName s i = some x := by
  unfold serviceInstanceNames
  obtain ⟨l, hl⟩ := Dist.mapM_isSome (f := fun i : Nat => getInstanceName s i) (l := List.range s.getCount.toNat) (by
    intro i hi
    rw [List.mem_range] at hi
    obtain ⟨nm, g, rest, h, -⟩ := name_roundtrip (canon_of_ok hf hc) hn (i := i) (by omega)
      (by omega)
    exact ⟨nm, h⟩)
  obtain ⟨h1, h2⟩ := Dist.mapM_spec hl
  rw [List.length_range] at h1
  refine ⟨l, hl, h1, fun i hi => ⟨_, List.getElem?_eq_getElem (by omega), ?_⟩⟩
  have := h2 i (by rw [List.length_range]; exact hi) (by omega)
  rw [List.getElem_range] at this
  exact this

theorem deployed {e : Env} {w : Test} (hs : SoundTest e w) (hn : PlainNames w.cfg) {engines : List Nat}
    (he : AllInstances w.cfg engines) (failed warmup : Nat → Bool) (F : Nat → Nat) :
    Deployed (globalConfig w F) (setupOf w failed warmup) engines := by
  have hmem : ∀ {x}, x ∈ engines ↔ x < (places w.cfg).length := by
    intro x
    rw [he.mem_iff, List.mem_range, places_length]
  have hname : ∀ (i : Nat) s, w.cfg.services[i]? = some s → ∃ l, serviceInstanceNames s = some l ∧
      l.length = s.getCount.toNat ∧
      ∀ i : Nat, i < s.getCount.toNat → ∃ x, l[i]? = some x ∧ getInstanceName s i = some x := by
    intro i s hi
    obtain ⟨raw, h1, h2⟩ := hs.services s (List.mem_of_getElem? hi)
    exact instanceNames h1 h2 (hn s (List.mem_of_getElem? hi))
  refine ⟨?_, ?_, ?_, ?_, ?_⟩
  · intro i j i' j' row row' x h1 h2 h3 h4
    simp only [setupOf, List.getElem?_map, Option.map_eq_some_iff] at h1 h3
    obtain ⟨s, hi, rfl⟩ := h1
    obtain ⟨s', hi', rfl⟩ := h3
    obtain ⟨l, k1, k2, k3⟩ := hname i s hi
    obtain ⟨l', k1', k2', k3'⟩ := hname i' s' hi'
    rw [k1, Option.getD_some] at h2
    rw [k1', Option.getD_some] at h4
    have hj : j < s.getCount.toNat := by rw [← k2]; exact (List.getElem?_eq_some_iff.1 h2).1
    have hj' : j' < s'.getCount.toNat := by rw [← k2']; exact (List.getElem?_eq_some_iff.1 h4).1
    obtain ⟨y, y1, y2⟩ := k3 j hj
    obtain ⟨y', y1', y2'⟩ := k3' j' hj'
    rw [h2] at y1
    rw [h4] at y1'
    cases y1
    cases y1'
    obtain ⟨raw, r1, r2⟩ := hs.services s (List.mem_of_getElem? hi)
    obtain ⟨raw', r1', r2'⟩ := hs.services s' (List.mem_of_getElem? hi')
    unfold ServiceSpec.getCount at hj hj'
    obtain ⟨u1, u2⟩ := C07_names_unique raw raw' s s' r1 r1' r2 r2' (hn s (List.mem_of_getElem? hi))
      (hn s' (List.mem_of_getElem? hi')) j j' (by omega) (by omega) (by omega) (by omega) (y2.trans y2'.symm)
    have := names_inj hs.distinct.services hi hi' u1
    subst this
    rw [hi] at hi'
    cases hi'
    exact ⟨rfl, by have := u2 rfl; omega⟩
  · exact he.nodup_iff.2 List.nodup_range
  · intro x hx
    have hp := List.getElem?_eq_getElem (hmem.1 hx)
    obtain ⟨s, h1, h2⟩ := mem_places.1 (List.mem_of_getElem? hp)
    obtain ⟨l, k1, k2, k3⟩ := hname _ s h1
    obtain ⟨y, y1, y2⟩ := k3 _ h2
    refine ⟨y, ?_⟩
    unfold Report.Setup.nameAt
    simp only [setupOf, hp, Option.getD_some, List.getElem?_map, h1, Option.map_some, k1]
    exact y1
  · intro x hx y hy hxy
    have hp := List.getElem?_eq_getElem (hmem.1 hx)
    have hq := List.getElem?_eq_getElem (hmem.1 hy)
    simp only [setupOf, hp, hq, Option.getD_some] at hxy
    exact (List.getElem?_inj (hmem.1 hx) (places_nodup _)).1 (by rw [hp, hq, hxy])
  · intro x hx
    rw [hmem]
    have : ∃ i, serviceOf w.cfg x = some i := by
      rcases hx with ⟨l, h⟩ | ⟨q, h⟩
      · obtain ⟨i, hi, -⟩ := mem_roots h
        exact ⟨i, hi⟩
      · obtain ⟨i, hi, -⟩ := servers_service h
        exact ⟨i, hi⟩
    obtain ⟨i, hi⟩ := this
    obtain ⟨n, hp⟩ := serviceOf_some.1 hi
    exact (List.getElem?_eq_some_iff.1 hp).1

theorem no_limit {w : Test} (hu : UnlimitedSamples w.cfg) (failed warmup : Nat → Bool) (s : Traffic.State) :
    NoLimit (setupOf w failed warmup) s := by
  intro k _
  show ((w.cfg.actionLists[k.list]?).map (·.maxRpcSamples)).getD 0 ≤ 0
  cases h : w.cfg.actionLists[k.list]? with
  | none => exact Int.le_refl 0
  | some l => exact hu l (List.mem_of_getElem? h)

theorem all_kinds {e : Env} {w : Test} (hs : SoundTest e w) (F : Nat → Nat) :
    AllKinds (globalConfig w F) (List.range w.cfg.rpcs.length) := by
  refine ⟨List.nodup_range, ?_⟩
  intro l x hx q f hw
  obtain ⟨y, hy, rfl⟩ := List.mem_map.1 hx
  obtain ⟨a, ha⟩ := List.getElem?_of_mem hy
  obtain ⟨i, r, sv, -, -, -, g4, -⟩ := rpc_work hs ha hw
  exact List.mem_range.2 (List.getElem?_eq_some_iff.1 g4).1

end Distbench.Whole
