import Verif.Lemmas.Tables
import Verif.Lemmas.Distribution

/-! Properties of the tables built from a traffic configuration: C28, C42 and the properties about
activities, payload sizes, channels and predicate names. -/

namespace Distbench
open Tables Services Spec

/-- The resolver of a set of tables: what the second pass looked names up in. -/
def resolverOf (cfg : Tables.Config) (t : Tables.Tables) : Resolver :=
  { services := t.services, delays := t.delayGens, sizes := t.sizeGens, payloads := t.payloads,
    rpcIndices := enumerateRpcs (cfg.rpcs.map (·.name)),
    listIndices := lastIndices (cfg.actionLists.map (·.name)),
    activityIndices := t.activities.map, traceIndices := t.traces }

/-- Everything a successful `initTables` went through. -/
theorem initTables_phases {e : Env} {cfg : Tables.Config} {svc : Str} {t : Tables.Tables}
    (h : initTables e cfg svc = .ok t) :
    t.services = enumerateServiceTypes cfg.services ∧
    initGens e (canonicalSize e) cfg.rpcDistributions {} = .ok t.rpcGens ∧
    initGens e (fun c => Dist.canonical e.rnd c delayFields) cfg.delayDistributions {}
      = .ok t.delayGens ∧
    initGens e (canonicalSize e) cfg.sizeDistributions {} = .ok t.sizeGens ∧
    initPayloads t.sizeGens cfg.payloads [] = .ok t.payloads ∧
    initRpcDefinitions e cfg svc t.services t.rpcGens t.sizeGens t.payloads cfg.rpcs 0
      = .ok t.rpcDefs ∧
    initActivities cfg.activities {} = .ok t.activities ∧
    initTraces (enumerateServiceSizes cfg.services) cfg.traces 0 [] = .ok t.traces ∧
    mapIdxOutcome (fun _ l => buildActionList cfg (resolverOf cfg t) l) 0 cfg.actionLists
      = .ok t.actionLists ∧
    mapIdxOutcome (fun _ rpc => rpcEntry cfg svc t.services
      (lastIndices (cfg.actionLists.map (·.name))) t.rpcDefs rpc) 0 cfg.rpcs = .ok t.rpcTable := by
  simp only [initTables, Outcome.bind_ok] at h
  obtain ⟨rg, hrg, dg, hdg, sg, hsg, p, hp, d, hd, a, ha, tr, htr, l, hl, r, hr, h⟩ := h
  injection h with h
  subst h
  exact ⟨rfl, hrg, hdg, hsg, hp, hd, ha, htr, hl, hr⟩

private theorem findAction_some {actions : List Action} {n : Str} {a : Action}
    (h : findAction actions n = some a) : a ∈ actions ∧ a.name = n := by
  refine ⟨List.mem_reverse.1 (List.mem_of_find?_eq_some h), ?_⟩
  simpa using List.find?_some h

private theorem firstPass_ok {cfg : Tables.Config} {r : Resolver} {n : Str} {x : ActionEntry}
    (h : firstPass cfg r n = .ok x) :
    findAction cfg.actions n = some x.proto ∧
    (∀ p, x.proto.requestPayloadOverride = some p →
      getPayloadSizeIndex r.sizes r.payloads p ≠ -1 ∧
      x.requestPayloadOverrideIndex = getPayloadSizeIndex r.sizes r.payloads p) ∧
    (∀ p, x.proto.responsePayloadOverride = some p →
      getPayloadSizeIndex r.sizes r.payloads p ≠ -1 ∧
      x.responsePayloadOverrideIndex = getPayloadSizeIndex r.sizes r.payloads p) := by
  unfold firstPass at h
  cases hf : findAction cfg.actions n with
  | none => rw [hf] at h; simp at h
  | some a =>
    simp only [hf] at h
    split at h
    · simp at h
    · rename_i h1
      split at h
      · simp at h
      · rename_i h2
        injection h with h
        subst h
        refine ⟨rfl, ?_, ?_⟩
        · intro p hp
          simp only at hp ⊢
          rw [hp] at h1 ⊢
          simpa using h1
        · intro p hp
          simp only at hp ⊢
          rw [hp] at h2 ⊢
          simpa using h2

private theorem resolveDelay_ok {r : Resolver} {x y : ActionEntry} (h : resolveDelay r x = .ok y) :
    (∀ d, x.proto.delayDistributionName = some d →
      r.delays.index d ≠ -1 ∧ y.delayDistributionIndex = r.delays.index d) ∧
    (x.proto.delayDistributionName = none → y.delayDistributionIndex = -1) ∧
    y = { x with delayDistributionIndex := y.delayDistributionIndex } := by
  unfold resolveDelay at h
  cases hd : x.proto.delayDistributionName with
  | none =>
    simp only [hd] at h
    injection h with h
    subst h
    exact ⟨by simp, by simp, rfl⟩
  | some d =>
    simp only [hd] at h
    by_cases hi : r.delays.index d = -1
    · rw [if_pos hi] at h; simp at h
    · rw [if_neg hi] at h
      injection h with h
      subst h
      refine ⟨?_, by simp, rfl⟩
      intro d' hd'
      injection hd' with hd'
      subst hd'
      exact ⟨hi, rfl⟩

/-- What `resolveKind` records for each kind of action. -/
private def KindResolved (cfg : Tables.Config) (r : Resolver) (y : ActionEntry) : ActionKind → Prop
  | .none => True
  | .rpc n => r.rpcIndices.find n = some y.rpcIndex ∧
      ∃ spec, cfg.rpcs[y.rpcIndex.toNat]? = some spec ∧
        r.services.find spec.server = some y.rpcServiceIndex
  | .actionList n => r.listIndices.find n = some y.actionlistIndex
  | .activity n => r.activityIndices.find n = some y.activityConfigIndex
  | .replay n => r.traceIndices.find n = some y.rpcReplayTraceIndex

private theorem resolveKind_ok {cfg : Tables.Config} {r : Resolver} {x y : ActionEntry}
    (h : resolveKind cfg r x = .ok y) :
    KindResolved cfg r y x.proto.kind ∧ y.proto = x.proto ∧
    y.delayDistributionIndex = x.delayDistributionIndex ∧
    y.requestPayloadOverrideIndex = x.requestPayloadOverrideIndex ∧
    y.responsePayloadOverrideIndex = x.responsePayloadOverrideIndex := by
  unfold resolveKind at h
  cases hk : x.proto.kind with
  | none =>
    simp only [hk] at h
    injection h with h
    subst h
    exact ⟨trivial, rfl, rfl, rfl, rfl⟩
  | rpc n =>
    simp only [hk] at h
    cases hf : r.rpcIndices.find n with
    | none => rw [hf] at h; simp at h
    | some ri =>
      simp only [hf] at h
      cases hs : cfg.rpcs[ri.toNat]? with
      | none => rw [hs] at h; simp at h
      | some spec =>
        simp only [hs] at h
        cases hv : r.services.find spec.server with
        | none => rw [hv] at h; simp at h
        | some si =>
          simp only [hv] at h
          injection h with h
          subst h
          exact ⟨⟨hf, spec, hs, hv⟩, rfl, rfl, rfl, rfl⟩
  | actionList n =>
    simp only [hk] at h
    cases hf : r.listIndices.find n with
    | none => rw [hf] at h; simp at h
    | some i =>
      simp only [hf] at h
      injection h with h
      subst h
      exact ⟨hf, rfl, rfl, rfl, rfl⟩
  | activity n =>
    simp only [hk] at h
    cases hf : r.activityIndices.find n with
    | none => rw [hf] at h; simp at h
    | some i =>
      simp only [hf] at h
      injection h with h
      subst h
      exact ⟨hf, rfl, rfl, rfl, rfl⟩
  | replay n =>
    simp only [hk] at h
    cases hf : r.traceIndices.find n with
    | none => rw [hf] at h; simp at h
    | some i =>
      simp only [hf] at h
      injection h with h
      subst h
      exact ⟨hf, rfl, rfl, rfl, rfl⟩

/-- What one accepted entry of an action list looks like. -/
private theorem entry_facts {e : Env} {cfg : Tables.Config} {svc : Str} {t : Tables.Tables}
    (h : initTables e cfg svc = .ok t) {i : Nat} {l : ActionList}
    (hl : cfg.actionLists[i]? = some l) :
    ∃ entry, t.actionLists[i]? = some entry ∧ entry.proto = l ∧
      entry.listActions.length = l.actionNames.length ∧
      ∀ (j : Nat) n, l.actionNames[j]? = some n → ∃ x, entry.listActions[j]? = some x ∧
        findAction cfg.actions n = some x.proto ∧
        (∀ p, x.proto.requestPayloadOverride = some p →
          getPayloadSizeIndex t.sizeGens t.payloads p ≠ -1 ∧
          x.requestPayloadOverrideIndex = getPayloadSizeIndex t.sizeGens t.payloads p) ∧
        (∀ p, x.proto.responsePayloadOverride = some p →
          getPayloadSizeIndex t.sizeGens t.payloads p ≠ -1 ∧
          x.responsePayloadOverrideIndex = getPayloadSizeIndex t.sizeGens t.payloads p) ∧
        (∀ d, x.proto.delayDistributionName = some d →
          t.delayGens.index d ≠ -1 ∧ x.delayDistributionIndex = t.delayGens.index d) ∧
        (x.proto.delayDistributionName = none → x.delayDistributionIndex = -1) ∧
        KindResolved cfg (resolverOf cfg t) x x.proto.kind ∧
        x.dependentActionIndices.length = x.proto.dependencies.length ∧
        ∀ (k : Nat) d, x.proto.dependencies[k]? = some d →
          ∃ v, x.dependentActionIndices[k]? = some v ∧
            (lastIndices l.actionNames).find d = some v ∧ v < j := by
  obtain ⟨-, -, -, -, -, -, -, -, hlists, -⟩ := initTables_phases h
  obtain ⟨h1, h2⟩ := mapIdx_ok hlists
  obtain ⟨entry, he, hb⟩ := h2 i l hl
  refine ⟨entry, he, ?_⟩
  simp only [buildActionList, Outcome.bind_ok] at hb
  obtain ⟨first, hfirst, second, hsecond, hb⟩ := hb
  injection hb with hb
  obtain ⟨f1, f2⟩ := mapIdx_ok hfirst
  obtain ⟨s1, s2⟩ := mapIdx_ok hsecond
  subst hb
  refine ⟨rfl, by simp only; omega, ?_⟩
  intro j n hj
  obtain ⟨x0, hx0, hfp⟩ := f2 j n hj
  obtain ⟨x, hx, hsp⟩ := s2 j x0 hx0
  refine ⟨x, hx, ?_⟩
  simp only [secondPass, Outcome.bind_ok] at hsp
  obtain ⟨e1, he1, e2, he2, deps, hdeps, hsp⟩ := hsp
  injection hsp with hsp
  obtain ⟨a1, a2, a3⟩ := firstPass_ok hfp
  obtain ⟨b1, b2, b3⟩ := resolveDelay_ok he1
  obtain ⟨c1, c2, c3, c4, c5⟩ := resolveKind_ok he2
  obtain ⟨d1, d2⟩ := resolveDeps_ok hdeps
  have p1 : e1.proto = x0.proto := by rw [b3]
  have px : x.proto = x0.proto := by rw [← hsp]; simp only; rw [c2, p1]
  have q1 : x.requestPayloadOverrideIndex = x0.requestPayloadOverrideIndex := by
    rw [← hsp]; simp only; rw [c4, b3]
  have q2 : x.responsePayloadOverrideIndex = x0.responsePayloadOverrideIndex := by
    rw [← hsp]; simp only; rw [c5, b3]
  have q3 : x.delayDistributionIndex = e1.delayDistributionIndex := by
    rw [← hsp]; simp only; rw [c3]
  have q4 : x.dependentActionIndices = deps := by rw [← hsp]
  have q5 : KindResolved cfg (resolverOf cfg t) x x.proto.kind := by
    rw [p1] at c1
    rw [px, ← hsp]
    revert c1
    cases x0.proto.kind <;> exact id
  rw [px, q1, q2, q3, q4]
  rw [px] at q5
  refine ⟨a1, a2, a3, b1, b2, q5, d1, ?_⟩
  intro k d hd
  obtain ⟨v, hv1, hv2, hv3⟩ := d2 k d hd
  exact ⟨v, hv1, hv2, by omega⟩

private theorem targetExists_of {e : Env} {cfg : Tables.Config} {svc : Str} {t : Tables.Tables}
    (h : initTables e cfg svc = .ok t) {x : ActionEntry} {kind : ActionKind}
    (hk : KindResolved cfg (resolverOf cfg t) x kind) : TargetExists cfg kind := by
  obtain ⟨-, -, -, -, -, -, hact, htr, -, -⟩ := initTables_phases h
  cases kind with
  | none => trivial
  | rpc n =>
    obtain ⟨h1, -⟩ := hk
    obtain ⟨h2, -⟩ := enumerate_some h1
    obtain ⟨r, hr, hn⟩ := List.mem_map.1 h2
    exact ⟨r, hr, hn⟩
  | actionList n =>
    obtain ⟨kn, -, h2, -⟩ := lastIndices_some hk
    obtain ⟨l, hl, hn⟩ := List.mem_map.1 (List.mem_of_getElem? h2)
    exact ⟨l, hl, hn⟩
  | activity n =>
    obtain ⟨h1, -⟩ := initActivities_ok hact
    have hk : t.activities.map.find n = some x.activityConfigIndex := hk
    rcases (h1 n).1 (by rw [hk]; simp) with h2 | h2
    · exact absurd rfl h2
    · exact h2
  | replay n =>
    obtain ⟨h1, -⟩ := initTraces_ok htr
    have hk : t.traces.find n = some x.rpcReplayTraceIndex := hk
    rcases (h1 n).1 (by rw [hk]; simp) with h2 | h2
    · exact absurd rfl h2
    · exact h2

/-- C28.  When a configuration is accepted, every name in every action list is a defined action,
all of whose dependencies stand earlier in the same list and whose RPC, action list, activity,
trace, delay distribution and payload overrides exist; and the table holds, for that position, that
action with its dependencies replaced by the earlier positions they name. -/
theorem C28_accepted (e : Env) (cfg : Tables.Config) (svc : Str) (t : Tables.Tables)
    (h : initTables e cfg svc = .ok t) (i : Nat) (l : ActionList)
    (hl : cfg.actionLists[i]? = some l) :
    ∃ entry, t.actionLists[i]? = some entry ∧ entry.proto = l ∧
      entry.listActions.length = l.actionNames.length ∧
      ∀ (j : Nat) n, l.actionNames[j]? = some n → ∃ x, entry.listActions[j]? = some x ∧
        x.proto ∈ cfg.actions ∧ x.proto.name = n ∧
        RefersBackwards cfg l j x.proto ∧
        x.dependentActionIndices.length = x.proto.dependencies.length ∧
        ∀ (k : Nat) d, x.proto.dependencies[k]? = some d →
          ∃ v : Nat, x.dependentActionIndices[k]? = some (v : Int) ∧ v < j ∧
            l.actionNames[v]? = some d := by
  obtain ⟨entry, h1, h2, h3, h4⟩ := entry_facts h hl
  obtain ⟨-, -, hdel, hsz, hpay, -, -, -, -, -⟩ := initTables_phases h
  refine ⟨entry, h1, h2, h3, ?_⟩
  intro j n hj
  obtain ⟨x, a1, a2, a3, a4, a5, -, a6, a7, a8⟩ := h4 j n hj
  obtain ⟨b1, b2⟩ := findAction_some a2
  have key : ∀ (k : Nat) d, x.proto.dependencies[k]? = some d →
      ∃ v : Nat, x.dependentActionIndices[k]? = some (v : Int) ∧ v < j ∧
        l.actionNames[v]? = some d := by
    intro k d hd
    obtain ⟨v, c1, c2, c3⟩ := a8 k d hd
    obtain ⟨vn, rfl, d2, -⟩ := lastIndices_some c2
    exact ⟨vn, c1, by omega, d2⟩
  refine ⟨x, a1, b1, b2, ⟨?_, targetExists_of h a6, ?_, ?_, ?_⟩, a7, key⟩
  · intro d hd
    obtain ⟨k, hk, he⟩ := List.mem_iff_getElem.1 hd
    obtain ⟨v, -, c2, c3⟩ := key k d (by rw [List.getElem?_eq_getElem hk, he])
    exact ⟨v, c2, c3⟩
  · intro d hd
    exact ((initGens_index hdel d).1).1 (a5 d hd).1
  · intro p hp
    exact sizedPayload_of_index hsz hpay (a3 p hp).1
  · intro p hp
    exact sizedPayload_of_index hsz hpay (a4 p hp).1

/-- An action list counts as one with RPCs exactly if one of its actions is an RPC. -/
theorem C258_lists (e : Env) (cfg : Tables.Config) (svc : Str) (t : Tables.Tables)
    (h : initTables e cfg svc = .ok t) (i : Nat) (entry : ActionListEntry)
    (he : t.actionLists[i]? = some entry) :
    entry.hasRpcs = true ↔ ∃ x ∈ entry.listActions, ∃ n, x.proto.kind = .rpc n := by
  obtain ⟨-, -, -, -, -, -, -, -, hlists, -⟩ := initTables_phases h
  obtain ⟨h1, h2⟩ := mapIdx_ok hlists
  have hi : i < cfg.actionLists.length := by
    have := (List.getElem?_eq_some_iff.1 he).1
    omega
  obtain ⟨entry', he', hb⟩ := h2 i _ (List.getElem?_eq_getElem hi)
  rw [he] at he'
  cases he'
  simp only [buildActionList, Outcome.bind_ok] at hb
  obtain ⟨first, hfirst, second, hsecond, hb⟩ := hb
  injection hb with hb
  obtain ⟨s1, s2⟩ := mapIdx_ok hsecond
  subst hb
  have key : ∀ (j : Nat) (x0 : ActionEntry), first[j]? = some x0 →
      ∃ x, second[j]? = some x ∧ x.proto = x0.proto := by
    intro j x0 hx0
    obtain ⟨x, hx, hsp⟩ := s2 j x0 hx0
    refine ⟨x, hx, ?_⟩
    simp only [secondPass, Outcome.bind_ok] at hsp
    obtain ⟨e1, he1, e2, he2, deps, hdeps, hsp⟩ := hsp
    injection hsp with hsp
    obtain ⟨b1, b2, b3⟩ := resolveDelay_ok he1
    obtain ⟨c1, c2, c3, c4, c5⟩ := resolveKind_ok he2
    rw [← hsp]
    dsimp only
    rw [c2, b3]
  dsimp only
  rw [List.any_eq_true]
  constructor
  · rintro ⟨x0, hm, hk⟩
    obtain ⟨j, hj⟩ := List.getElem?_of_mem hm
    obtain ⟨x, hx, hp⟩ := key j x0 hj
    refine ⟨x, List.mem_of_getElem? hx, ?_⟩
    rw [hp]
    revert hk
    cases x0.proto.kind <;> simp
  · rintro ⟨x, hm, n, hk⟩
    obtain ⟨j, hj⟩ := List.getElem?_of_mem hm
    have hj0 : j < first.length := by
      have := (List.getElem?_eq_some_iff.1 hj).1
      omega
    have hx0 := List.getElem?_eq_getElem hj0
    obtain ⟨x', hx, hp⟩ := key j _ hx0
    rw [hj] at hx
    cases hx
    refine ⟨_, List.mem_of_getElem? hx0, ?_⟩
    rw [← hp, hk]

/-- C28, rejection.  A configuration with an action list that names an undefined action, or an
action that does not refer backwards to existing things, is never accepted. -/
theorem C28_rejected (e : Env) (cfg : Tables.Config) (svc : Str)
    (hnd : (cfg.actions.map (·.name)).Nodup)
    (h : ∃ l ∈ cfg.actionLists, ∃ (j : Nat) (n : Str), l.actionNames[j]? = some n ∧
      ∀ a ∈ cfg.actions, a.name = n → ¬ RefersBackwards cfg l j a) :
    ∀ t, initTables e cfg svc ≠ .ok t := by
  intro t ht
  obtain ⟨l, hl, j, n, hj, hbad⟩ := h
  obtain ⟨i, hi, he⟩ := List.mem_iff_getElem.1 hl
  obtain ⟨entry, -, -, -, h4⟩ := C28_accepted e cfg svc t ht i l (by
    rw [List.getElem?_eq_getElem hi, he])
  obtain ⟨x, -, b1, b2, b3, -⟩ := h4 j n hj
  exact hbad _ b1 b2 b3

/-- C28, indices.  With distinct names, what an accepted action runs is what it names: the table
holds the position of the RPC, action list, activity or trace of that name. -/
theorem C28_targets (e : Env) (cfg : Tables.Config) (svc : Str) (t : Tables.Tables)
    (hd : DistinctNames cfg) (h : initTables e cfg svc = .ok t) (i : Nat) (l : ActionList)
    (hl : cfg.actionLists[i]? = some l) (entry : ActionListEntry)
    (he : t.actionLists[i]? = some entry) (j : Nat) (x : ActionEntry)
    (hx : entry.listActions[j]? = some x) :
    (∀ n, x.proto.kind = .rpc n → ∃ (k s : Nat), x.rpcIndex = k ∧ x.rpcServiceIndex = s ∧
      ∃ r, cfg.rpcs[k]? = some r ∧ r.name = n ∧
        ∃ sv, cfg.services[s]? = some sv ∧ sv.name = r.server) ∧
    (∀ n, x.proto.kind = .actionList n → ∃ k : Nat, x.actionlistIndex = k ∧
      ∃ a, cfg.actionLists[k]? = some a ∧ a.name = n) ∧
    (∀ n, x.proto.kind = .activity n → ∃ k : Nat, x.activityConfigIndex = k ∧
      ∃ a p, cfg.activities[k]? = some a ∧ a.name = n ∧
        t.activities.stored[k]? = some p ∧ p.name = n) ∧
    (∀ n, x.proto.kind = .replay n → ∃ k : Nat, x.rpcReplayTraceIndex = k ∧
      ∃ a, cfg.traces[k]? = some a ∧ a.name = n) := by
  obtain ⟨entry', h1, -, h3, h4⟩ := entry_facts h hl
  obtain ⟨hsv, -, -, -, -, -, hact, htr, -, -⟩ := initTables_phases h
  rw [he] at h1
  injection h1 with h1
  subst h1
  have hj : j < l.actionNames.length := by
    by_cases hj : j < entry.listActions.length
    · omega
    · rw [List.getElem?_eq_none (by omega)] at hx; simp at hx
  obtain ⟨x', a1, -, -, -, -, -, a6, -⟩ := h4 j _ (List.getElem?_eq_getElem hj)
  rw [hx] at a1
  injection a1 with a1
  subst a1
  refine ⟨?_, ?_, ?_, ?_⟩
  · intro n hn
    rw [hn] at a6
    obtain ⟨b1, spec, b2, b3⟩ := a6
    have b1 : (enumerate (cfg.rpcs.map (·.name))).find n = some x.rpcIndex := b1
    have b3 : t.services.find spec.server = some x.rpcServiceIndex := b3
    rw [hsv] at b3
    unfold enumerateServiceTypes at b3
    obtain ⟨m1, -, -⟩ := enumerate_some b1
    obtain ⟨m2, -, -⟩ := enumerate_some b3
    obtain ⟨k, hk, hkn⟩ := List.mem_iff_getElem.1 m1
    obtain ⟨s, hs, hsn⟩ := List.mem_iff_getElem.1 m2
    have e1 := (enumerate_spec _ hd.rpcs).2.1 k hk
    have e2 := (enumerate_spec _ hd.services).2.1 s hs
    rw [hkn, b1] at e1
    rw [hsn, b3] at e2
    injection e1 with e1
    injection e2 with e2
    rw [e1, Int.toNat_natCast] at b2
    refine ⟨k, s, e1, e2, spec, b2, ?_, ?_⟩
    · rw [List.getElem_map] at hkn
      rw [List.length_map] at hk
      rw [List.getElem?_eq_getElem hk] at b2
      injection b2 with b2
      rw [← b2]; exact hkn
    · rw [List.getElem_map] at hsn
      rw [List.length_map] at hs
      exact ⟨_, List.getElem?_eq_getElem hs, hsn⟩
  · intro n hn
    rw [hn] at a6
    obtain ⟨k, b1, b2, -⟩ := lastIndices_some a6
    rw [List.getElem?_map, Option.map_eq_some_iff] at b2
    obtain ⟨a, c1, c2⟩ := b2
    exact ⟨k, b1, a, c1, c2⟩
  · intro n hn
    rw [hn] at a6
    have a6 : t.activities.map.find n = some x.activityConfigIndex := a6
    obtain ⟨c1, -, c3, -, c5⟩ := initActivities_ok hact
    rcases (c1 n).1 (by rw [a6]; simp) with h2 | ⟨a, ha, hna⟩
    · exact absurd rfl h2
    · obtain ⟨k, hk, hka⟩ := List.mem_iff_getElem.1 ha
      have hg : cfg.activities[k]? = some a := by rw [List.getElem?_eq_getElem hk, hka]
      have := c3 k a hg
      obtain ⟨p, hp, hst⟩ := c5 k a hg
      rw [hna, a6] at this
      injection this with this
      simp only [List.length_nil, Nat.zero_add] at this hst
      exact ⟨k, this, a, p, hg, hna, hst, by rw [parse_name hp, hna]⟩
  · intro n hn
    rw [hn] at a6
    have a6 : t.traces.find n = some x.rpcReplayTraceIndex := a6
    obtain ⟨c1, -, c3, -⟩ := initTraces_ok htr
    rcases (c1 n).1 (by rw [a6]; simp) with h2 | ⟨a, ha, hna⟩
    · exact absurd rfl h2
    · obtain ⟨k, hk, hka⟩ := List.mem_iff_getElem.1 ha
      have hg : cfg.traces[k]? = some a := by rw [List.getElem?_eq_getElem hk, hka]
      have := c3 k a hg
      rw [hna, a6] at this
      injection this with this
      rw [Nat.zero_add] at this
      exact ⟨k, this, a, hg, hna⟩

private theorem nodup_name_inj {α : Type} {f : α → Str} {l : List α} (h : (l.map f).Nodup) {a b : α}
    (ha : a ∈ l) (hb : b ∈ l) (he : f a = f b) : a = b := by
  induction l with
  | nil => simp at ha
  | cons x l ih =>
    rw [List.map_cons, List.nodup_cons] at h
    rcases List.mem_cons.1 ha with rfl | ha
    · rcases List.mem_cons.1 hb with rfl | hb
      · rfl
      · exact absurd (List.mem_map.2 ⟨b, hb, he.symm⟩) h.1
    · rcases List.mem_cons.1 hb with e | hb
      · exact absurd (List.mem_map.2 ⟨a, ha, by rw [he, e]⟩) h.1
      · exact ih h.2 ha hb

private theorem findAction_of_mem {actions : List Action} (h : (actions.map (·.name)).Nodup)
    {a : Action} (ha : a ∈ actions) : findAction actions a.name = some a := by
  cases hf : findAction actions a.name with
  | none =>
    unfold findAction at hf
    rw [List.find?_eq_none] at hf
    exact absurd (by simp) (hf a (List.mem_reverse.2 ha))
  | some b =>
    obtain ⟨h1, h2⟩ := findAction_some hf
    rw [nodup_name_inj (f := Action.name) h ha h1 h2.symm]

/-- The parts of a configuration that are checked before the action lists are all valid. -/
structure PartsValid (e : Env) (cfg : Tables.Config) (svc : Str) (rg dg sg : Gens)
    (pays : PayloadMap) (defs : List RpcDefinition) (acts : Activities) (trs : NameMap) : Prop where
  rpcGens : initGens e (canonicalSize e) cfg.rpcDistributions {} = .ok rg
  delayGens : initGens e (fun c => Dist.canonical e.rnd c delayFields) cfg.delayDistributions {}
    = .ok dg
  sizeGens : initGens e (canonicalSize e) cfg.sizeDistributions {} = .ok sg
  payloads : initPayloads sg cfg.payloads [] = .ok pays
  rpcDefs : initRpcDefinitions e cfg svc (enumerateServiceTypes cfg.services) rg sg pays cfg.rpcs 0
    = .ok defs
  activities : initActivities cfg.activities {} = .ok acts
  traces : initTraces (enumerateServiceSizes cfg.services) cfg.traces 0 [] = .ok trs

private theorem firstPass_safe {cfg : Tables.Config} {r : Resolver} {n : Str} :
    (firstPass cfg r n).Safe := by
  unfold firstPass
  simp only
  repeat' split
  all_goals first
    | exact Outcome.safe_error _
    | exact Outcome.safe_ok _

private theorem secondPass_safe {cfg : Tables.Config} {r : Resolver} {m : NameMap} {j : Nat}
    {x : ActionEntry} (hr : r.rpcIndices = enumerateRpcs (cfg.rpcs.map (·.name))) :
    (secondPass cfg r m j x).Safe := by
  unfold secondPass
  refine Outcome.safe_bind ?_ (fun e1 _ => Outcome.safe_bind ?_
    (fun e2 _ => Outcome.safe_bind resolveDeps_safe (fun _ _ => Outcome.safe_ok _)))
  · unfold resolveDelay
    repeat' split
    all_goals first
      | exact Outcome.safe_error _
      | exact Outcome.safe_ok _
  · unfold resolveKind
    repeat' split
    all_goals first
      | exact Outcome.safe_error _
      | exact Outcome.safe_ok _
      | skip
    rename_i hri _ hnone
    rw [hr] at hri
    obtain ⟨-, h1, h2⟩ := enumerate_some hri
    rw [List.length_map] at h2
    rw [List.getElem?_eq_none_iff] at hnone
    omega

/-- C28, errors.  Once the distributions, payloads, RPC definitions, activities and traces are
valid, every problem with actions and action lists is reported as an error: nothing is undefined
and nothing aborts. -/
theorem C28_errors (e : Env) (cfg : Tables.Config) (svc : Str) (rg dg sg : Gens)
    (payloads : PayloadMap) (defs : List RpcDefinition) (acts : Activities) (traces : NameMap)
    (hv : PartsValid e cfg svc rg dg sg payloads defs acts traces) :
    (∃ t, initTables e cfg svc = .ok t) ∨ ∃ m, initTables e cfg svc = .error m := by
  refine Outcome.safe_cases ?_
  unfold initTables
  simp only
  rw [Outcome.bind_ok_of hv.rpcGens, Outcome.bind_ok_of hv.delayGens, Outcome.bind_ok_of hv.sizeGens,
    Outcome.bind_ok_of hv.payloads, Outcome.bind_ok_of hv.rpcDefs, Outcome.bind_ok_of hv.activities,
    Outcome.bind_ok_of hv.traces]
  refine Outcome.safe_bind (mapIdx_safe ?_) (fun lists _ =>
    Outcome.safe_bind (mapIdx_safe ?_) (fun _ _ => Outcome.safe_ok _))
  · intro k l _
    unfold buildActionList
    refine Outcome.safe_bind (mapIdx_safe (fun _ _ _ => firstPass_safe)) (fun first _ =>
      Outcome.safe_bind (mapIdx_safe (fun _ _ _ => secondPass_safe rfl)) (fun _ _ =>
        Outcome.safe_ok _))
  · intro k rpc _
    unfold rpcEntry
    repeat' split
    all_goals first
      | exact Outcome.safe_error _
      | exact Outcome.safe_ok _
      | skip

/-- C28, acceptance.  With distinct names, a configuration whose other parts are valid, whose
action lists only name defined actions that refer backwards to existing things, and each of whose
RPCs has clients and a server among the services and an action list of its name, is accepted. -/
theorem C28_complete (e : Env) (cfg : Tables.Config) (svc : Str) (rg dg sg : Gens)
    (payloads : PayloadMap) (defs : List RpcDefinition) (acts : Activities) (traces : NameMap)
    (hv : PartsValid e cfg svc rg dg sg payloads defs acts traces) (hd : DistinctNames cfg)
    (hl : ∀ l ∈ cfg.actionLists, ∀ (j : Nat) n, l.actionNames[j]? = some n →
      ∃ a ∈ cfg.actions, a.name = n ∧ RefersBackwards cfg l j a)
    (hr : ∀ r ∈ cfg.rpcs, r.client ≠ [] ∧ r.server ≠ [] ∧
      r.server ∈ cfg.services.map (·.name) ∧ (∀ c ∈ r.client, c ∈ cfg.services.map (·.name)) ∧
      ∃ l ∈ cfg.actionLists, l.name = r.name) :
    ∃ t, initTables e cfg svc = .ok t := by
  unfold initTables
  simp only
  rw [Outcome.bind_ok_of hv.rpcGens, Outcome.bind_ok_of hv.delayGens, Outcome.bind_ok_of hv.sizeGens,
    Outcome.bind_ok_of hv.payloads, Outcome.bind_ok_of hv.rpcDefs, Outcome.bind_ok_of hv.activities,
    Outcome.bind_ok_of hv.traces]
  let res₀ : Resolver :=
    { services := enumerateServiceTypes cfg.services, delays := dg, sizes := sg,
      payloads := payloads, rpcIndices := enumerateRpcs (cfg.rpcs.map (·.name)),
      listIndices := lastIndices (cfg.actionLists.map (·.name)), activityIndices := acts.map,
      traceIndices := traces }
  change ∃ t, (mapIdxOutcome (fun _ l => buildActionList cfg res₀ l) 0 cfg.actionLists >>= _) = _
  generalize hres : res₀ = res
  have hlists : ∃ r, mapIdxOutcome (fun _ l => buildActionList cfg res l) 0 cfg.actionLists
      = .ok r := by
    refine mapIdx_exists ?_
    intro i l hi
    have hlm := List.mem_of_getElem? hi
    have hfirst : ∃ r, mapIdxOutcome (fun _ n => firstPass cfg res n) 0 l.actionNames = .ok r := by
      refine mapIdx_exists ?_
      intro j n hj
      obtain ⟨a, ha, rfl, hb⟩ := hl l hlm j n hj
      unfold firstPass
      rw [findAction_of_mem hd.actions ha]
      simp only
      have n1 : ¬ (a.requestPayloadOverride.isSome = true ∧
          getPayloadSizeIndex res.sizes res.payloads (a.requestPayloadOverride.getD []) = -1) := by
        rintro ⟨h1, h2⟩
        obtain ⟨p, hp⟩ := Option.isSome_iff_exists.1 h1
        rw [hp] at h2
        subst hres
        exact index_of_sizedPayload hv.sizeGens hv.payloads (hb.request p hp) h2
      have n2 : ¬ (a.responsePayloadOverride.isSome = true ∧
          getPayloadSizeIndex res.sizes res.payloads (a.responsePayloadOverride.getD []) = -1) := by
        rintro ⟨h1, h2⟩
        obtain ⟨p, hp⟩ := Option.isSome_iff_exists.1 h1
        rw [hp] at h2
        subst hres
        exact index_of_sizedPayload hv.sizeGens hv.payloads (hb.response p hp) h2
      rw [if_neg n1, if_neg n2]
      exact ⟨_, rfl⟩
    obtain ⟨first, hfirst⟩ := hfirst
    obtain ⟨f1, f2⟩ := mapIdx_ok hfirst
    unfold buildActionList
    rw [Outcome.bind_ok_of hfirst]
    have hsecond : ∃ r, mapIdxOutcome (secondPass cfg res (lastIndices l.actionNames)) 0 first
        = .ok r := by
      refine mapIdx_exists ?_
      intro j x hx
      have hj : j < l.actionNames.length := by
        by_cases hj : j < first.length
        · omega
        · rw [List.getElem?_eq_none (by omega)] at hx; simp at hx
      have hjn := List.getElem?_eq_getElem hj
      obtain ⟨x', g1, g2⟩ := f2 j _ hjn
      rw [hx] at g1
      injection g1 with g1
      subst g1
      obtain ⟨a, ha, hna, hb⟩ := hl l hlm j _ hjn
      obtain ⟨p1, -, -⟩ := firstPass_ok g2
      rw [← hna, findAction_of_mem hd.actions ha] at p1
      injection p1 with p1
      unfold secondPass
      have hdel : ∃ e1, resolveDelay res x = .ok e1 := by
        unfold resolveDelay
        cases hdd : x.proto.delayDistributionName with
        | none => exact ⟨_, rfl⟩
        | some d =>
          have := ((initGens_index hv.delayGens d).1).2 (hb.delay d (by rw [p1, hdd]))
          subst hres
          simp only
          rw [if_neg this]
          exact ⟨_, rfl⟩
      obtain ⟨e1, he1⟩ := hdel
      have hp1 : e1.proto = x.proto := by rw [(resolveDelay_ok he1).2.2]
      have hkind : ∃ e2, resolveKind cfg res e1 = .ok e2 := by
        have htar := hb.target
        rw [p1] at htar
        unfold resolveKind
        rw [hp1]
        subst hres
        cases hk : x.proto.kind with
        | none => exact ⟨_, rfl⟩
        | rpc n =>
          rw [hk] at htar
          obtain ⟨r, hrm, hrn⟩ := htar
          obtain ⟨k, hk'⟩ := enumerate_of_mem (List.mem_map.2 ⟨r, hrm, hrn⟩)
          obtain ⟨-, k0, k1⟩ := enumerate_some hk'
          rw [List.length_map] at k1
          have hlt : k.toNat < cfg.rpcs.length := by omega
          have hg := List.getElem?_eq_getElem hlt
          obtain ⟨si, hsi⟩ := enumerate_of_mem (hr _ (List.mem_of_getElem? hg)).2.2.1
          simp only [res₀, enumerateRpcs, hk', hg, enumerateServiceTypes, hsi]
          exact ⟨_, rfl⟩
        | actionList n =>
          rw [hk] at htar
          obtain ⟨r, hrm, hrn⟩ := htar
          obtain ⟨k, hk'⟩ := lastIndices_of_mem (List.mem_map.2 ⟨r, hrm, hrn⟩)
          simp only [res₀, hk']
          exact ⟨_, rfl⟩
        | activity n =>
          rw [hk] at htar
          have := ((initActivities_ok hv.activities).1 n).2 (.inr htar)
          cases hf : acts.map.find n with
          | none => exact absurd hf this
          | some k => simp only [res₀, hf]; exact ⟨_, rfl⟩
        | replay n =>
          rw [hk] at htar
          have := ((initTraces_ok hv.traces).1 n).2 (.inr htar)
          cases hf : traces.find n with
          | none => exact absurd hf this
          | some k => simp only [res₀, hf]; exact ⟨_, rfl⟩
      obtain ⟨e2, he2⟩ := hkind
      have hdeps : ∃ ks, resolveDeps (lastIndices l.actionNames) (0 + j) x.proto.dependencies
          = .ok ks := by
        refine resolveDeps_exists ?_
        intro d hdm
        rw [← p1] at hdm
        obtain ⟨k, hk, hkd⟩ := hb.deps d hdm
        obtain ⟨v, hv'⟩ := lastIndices_of_mem (List.mem_of_getElem? hkd)
        refine ⟨v, hv', ?_⟩
        obtain ⟨vn, rfl, g3, g4⟩ := lastIndices_some hv'
        have hnd := hd.inList l hlm
        have hvl : vn < l.actionNames.length := by
          by_cases hlt : vn < l.actionNames.length
          · exact hlt
          · rw [List.getElem?_eq_none (by omega)] at g3; simp at g3
        have : vn = k := by
          have := (List.getElem?_inj hvl hnd).1 (g3.trans hkd.symm)
          exact this
        omega
      obtain ⟨ks, hks⟩ := hdeps
      rw [Outcome.bind_ok_of he1, Outcome.bind_ok_of he2, Outcome.bind_ok_of hks]
      exact ⟨_, rfl⟩
    obtain ⟨second, hsecond⟩ := hsecond
    rw [Outcome.bind_ok_of hsecond]
    exact ⟨_, rfl⟩
  obtain ⟨lists, hlists⟩ := hlists
  rw [Outcome.bind_ok_of hlists]
  have hrpcs : ∃ r, mapIdxOutcome (fun _ rpc => rpcEntry cfg svc (enumerateServiceTypes cfg.services)
      (lastIndices (cfg.actionLists.map (·.name))) defs rpc) 0 cfg.rpcs = .ok r := by
    refine mapIdx_exists ?_
    intro i rpc hi
    obtain ⟨r1, r2, r3, r4, lst, hlst, hln⟩ := hr rpc (List.mem_of_getElem? hi)
    unfold rpcEntry
    have n3 : ¬ (rpc.client.any (fun c => decide (c ≠ svc ∧
        ((enumerateServiceTypes cfg.services).find c).isNone = true)) = true) := by
      rw [List.any_eq_true]
      rintro ⟨c, hc, hcc⟩
      obtain ⟨k, hk⟩ := enumerate_of_mem (r4 c hc)
      simp [enumerateServiceTypes, hk] at hcc
    rw [if_neg r1, if_neg r2, if_neg n3]
    obtain ⟨k, hk⟩ := lastIndices_of_mem (List.mem_map.2 ⟨lst, hlst, hln⟩)
    obtain ⟨si, hsi⟩ := enumerate_of_mem r3
    simp only [hk, enumerateServiceTypes, hsi]
    exact ⟨_, rfl⟩
  obtain ⟨rt, hrt⟩ := hrpcs
  rw [Outcome.bind_ok_of hrt]
  exact ⟨_, rfl⟩

/-! ### concrete configurations -/

/-- Two services, one RPC, a client action list of two dependent actions and a handler list. -/
def sampleConfig : Tables.Config :=
  { services := [{ name := "client".toList, count := some 1 }, { name := "server".toList, count := some 2 }],
    payloads := [{ name := "small".toList, size := some 100 }],
    rpcs := [{ name := "query".toList, client := ["client".toList], server := "server".toList,
               requestPayloadName := some "small".toList }],
    activities := [{ name := "burn".toList,
                     settings := [{ name := some "activity_func".toList,
                                    stringValue := some "ConsumeCpu".toList }] }],
    actions := [{ name := "first".toList, kind := .rpc "query".toList },
                { name := "second".toList, dependencies := ["first".toList],
                  kind := .activity "burn".toList }],
    actionLists := [{ name := "client".toList, actionNames := ["first".toList, "second".toList] },
                    { name := "query".toList }] }

def sampleEnv : Env := { rnd := id, atof := fun _ => none }

/-- The same configuration with the two actions listed in the wrong order. -/
def badConfig : Tables.Config :=
  { sampleConfig with
    actionLists := [{ name := "client".toList, actionNames := ["second".toList, "first".toList] },
                    { name := "query".toList }] }

theorem sampleConfig_accepted : ∃ t, initTables sampleEnv sampleConfig "client".toList = .ok t :=
  ⟨_, rfl⟩

example (t : Tables.Tables) (ht : initTables sampleEnv sampleConfig "client".toList = .ok t) :=
  C28_accepted sampleEnv sampleConfig _ t ht 0 _ rfl

example (t : Tables.Tables) (ht : initTables sampleEnv sampleConfig "client".toList = .ok t)
    (entry : ActionListEntry) (h0 : t.actionLists[0]? = some entry) :
    entry.hasRpcs = true ↔ ∃ x ∈ entry.listActions, ∃ n, x.proto.kind = .rpc n :=
  C258_lists sampleEnv sampleConfig _ t ht 0 entry h0

example : ∀ t, initTables sampleEnv badConfig "client".toList ≠ .ok t := by
  refine C28_rejected _ _ _ (by decide) ⟨_, List.mem_cons_self, 0, "second".toList, rfl, ?_⟩
  intro a ha hn hb
  have : a.dependencies = ["first".toList] := by
    simp only [badConfig, sampleConfig, List.mem_cons, List.not_mem_nil, or_false] at ha
    rcases ha with rfl | rfl
    · exact absurd hn (by decide)
    · rfl
  obtain ⟨k, hk, -⟩ := hb.deps "first".toList (by rw [this]; simp)
  omega

theorem sampleConfig_distinct : DistinctNames sampleConfig :=
  ⟨by decide, by decide, by decide, by decide, by decide⟩

example (t : Tables.Tables) (ht : initTables sampleEnv sampleConfig "client".toList = .ok t) :=
  C28_targets sampleEnv sampleConfig _ t sampleConfig_distinct ht 0 _ rfl

example : ∃ rg dg sg p d a tr,
    PartsValid sampleEnv sampleConfig "client".toList rg dg sg p d a tr :=
  ⟨_, _, _, _, _, _, _, rfl, rfl, rfl, rfl, rfl, rfl, rfl⟩

end Distbench
