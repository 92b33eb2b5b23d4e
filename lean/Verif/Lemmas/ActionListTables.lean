import Verif.Lemmas.ActionList
import Verif.Lemmas.Tables

/-! What acceptance of a configuration says about its action lists. -/

namespace Distbench.ActionList
open Tables Spec Services

/-- The indices recorded for each kind of action; those of other kinds stay at -1. -/
def KindIndices (rpcs : Nat) (x : ActionEntry) : Prop :=
  match x.proto.kind with
  | .none => x.rpcServiceIndex = -1 ∧ x.actionlistIndex = -1 ∧ x.rpcReplayTraceIndex = -1
  | .rpc _ => x.actionlistIndex = -1 ∧ x.rpcReplayTraceIndex = -1 ∧ 0 ≤ x.rpcServiceIndex ∧
      0 ≤ x.rpcIndex ∧ x.rpcIndex.toNat < rpcs
  | .actionList _ => x.rpcReplayTraceIndex = -1 ∧ 0 ≤ x.actionlistIndex
  | .activity _ => x.rpcServiceIndex = -1 ∧ x.actionlistIndex = -1 ∧ x.rpcReplayTraceIndex = -1
  | .replay _ => 0 ≤ x.rpcReplayTraceIndex

theorem firstPass_fresh {cfg : Tables.Config} {r : Resolver} {n : Str} {x : ActionEntry}
    (h : firstPass cfg r n = .ok x) :
    x.rpcServiceIndex = -1 ∧ x.actionlistIndex = -1 ∧ x.rpcReplayTraceIndex = -1 ∧
    ∃ p, x.responsePayloadOverrideIndex = getPayloadSizeIndex r.sizes r.payloads p ∧
      (x.proto.responsePayloadOverride.isSome → x.responsePayloadOverrideIndex ≠ -1) := by
  unfold firstPass at h
  cases hf : findAction cfg.actions n with
  | none => rw [hf] at h; simp at h
  | some a =>
    simp only [hf] at h
    split at h
    · simp at h
    · split at h
      · simp at h
      · rename_i h2
        injection h with h
        subst h
        exact ⟨rfl, rfl, rfl, _, rfl, fun hx hy => h2 ⟨hx, hy⟩⟩

theorem resolveDelay_fresh {r : Resolver} {x y : ActionEntry} (h : resolveDelay r x = .ok y) :
    y.proto = x.proto ∧ y.rpcServiceIndex = x.rpcServiceIndex ∧
    y.actionlistIndex = x.actionlistIndex ∧ y.rpcReplayTraceIndex = x.rpcReplayTraceIndex ∧
    y.responsePayloadOverrideIndex = x.responsePayloadOverrideIndex ∧
    (y.delayDistributionIndex ≠ -1 ↔ ∃ d, x.proto.delayDistributionName = some d) := by
  unfold resolveDelay at h
  cases hd : x.proto.delayDistributionName with
  | none =>
    simp only [hd] at h
    injection h with h
    subst h
    simp
  | some d =>
    simp only [hd] at h
    by_cases hi : r.delays.index d = -1
    · rw [if_pos hi] at h; simp at h
    · rw [if_neg hi] at h
      injection h with h
      subst h
      simp [hi]

theorem loaded_entry {e : Env} {cfg : Tables.Config} {svc : Str} {t : Tables.Tables}
    (h : initTables e cfg svc = .ok t) {k : Nat} {entry : ActionListEntry}
    (hk : t.actionLists[k]? = some entry) {j : Nat} {x : ActionEntry}
    (hx : entry.listActions[j]? = some x) :
    KindIndices t.rpcTable.length x ∧ (∀ v ∈ x.dependentActionIndices, 0 ≤ v ∧ v < j) ∧
    (x.delayDistributionIndex ≠ -1 ↔ ∃ d, x.proto.delayDistributionName = some d) ∧
    (x.proto.responsePayloadOverride.isSome → 0 ≤ x.responsePayloadOverrideIndex) := by
  simp only [initTables, Outcome.bind_ok] at h
  obtain ⟨rg, hrg, dg, hdg, sg, hsg, p, hp, d, hd, a, ha, tr, htr, l, hl, r, hr, h⟩ := h
  injection h with h
  subst h
  simp only at hk
  obtain ⟨hlen, hl2⟩ := mapIdx_ok hl
  have hklt : k < cfg.actionLists.length := by
    by_cases hlt : k < l.length
    · omega
    · rw [List.getElem?_eq_none (by omega)] at hk; simp at hk
  obtain ⟨entry', he', hb⟩ := hl2 k _ (List.getElem?_eq_getElem hklt)
  rw [hk] at he'
  injection he' with he'
  subst he'
  simp only [buildActionList, Outcome.bind_ok] at hb
  obtain ⟨first, hfirst, second, hsecond, hb⟩ := hb
  injection hb with hb
  subst hb
  obtain ⟨f1, f2⟩ := mapIdx_ok hfirst
  obtain ⟨s1, s2⟩ := mapIdx_ok hsecond
  simp only at hx
  have hj : j < first.length := by
    by_cases hlt : j < second.length
    · omega
    · rw [List.getElem?_eq_none (by omega)] at hx; simp at hx
  obtain ⟨x0, hx0, hfp⟩ := f2 j _ (List.getElem?_eq_getElem (show j < _ by omega))
  obtain ⟨x', hx', hsp⟩ := s2 j x0 hx0
  rw [hx] at hx'
  injection hx' with hx'
  subst hx'
  obtain ⟨a1, a2, a3, pn, a4, a5⟩ := firstPass_fresh hfp
  simp only [secondPass, Outcome.bind_ok] at hsp
  obtain ⟨e1, he1, e2, he2, deps, hdeps, hsp⟩ := hsp
  injection hsp with hsp
  obtain ⟨b0, b1, b2, b3, b5, b4⟩ := resolveDelay_fresh he1
  have hdel : e2.proto = e1.proto ∧ e2.delayDistributionIndex = e1.delayDistributionIndex ∧
      e2.responsePayloadOverrideIndex = e1.responsePayloadOverrideIndex ∧ KindIndices r.length e2 := by
    obtain ⟨hrlen, -⟩ := mapIdx_ok hr
    unfold resolveKind at he2
    cases hkind : e1.proto.kind with
    | none =>
      simp only [hkind] at he2
      injection he2 with he2
      subst he2
      refine ⟨rfl, rfl, rfl, ?_⟩
      unfold KindIndices
      rw [hkind]
      exact ⟨by rw [b1, a1], by rw [b2, a2], by rw [b3, a3]⟩
    | rpc n =>
      simp only [hkind] at he2
      cases hf : (enumerateRpcs (cfg.rpcs.map (·.name))).find n with
      | none => rw [hf] at he2; simp at he2
      | some ri =>
        simp only [hf] at he2
        cases hs : cfg.rpcs[ri.toNat]? with
        | none => rw [hs] at he2; simp at he2
        | some spec =>
          simp only [hs] at he2
          cases hv : (enumerateServiceTypes cfg.services).find spec.server with
          | none => rw [hv] at he2; simp at he2
          | some si =>
            simp only [hv] at he2
            injection he2 with he2
            subst he2
            refine ⟨rfl, rfl, rfl, ?_⟩
            unfold KindIndices
            simp only [hkind]
            have hf' : (enumerate (cfg.rpcs.map (·.name))).find n = some ri := hf
            have hv' : (enumerate (cfg.services.map (·.name))).find spec.server = some si := hv
            obtain ⟨-, c1, -⟩ := enumerate_some hf'
            obtain ⟨-, c2, -⟩ := enumerate_some hv'
            have : ri.toNat < cfg.rpcs.length := by
              by_cases hlt : ri.toNat < cfg.rpcs.length
              · exact hlt
              · rw [List.getElem?_eq_none (by omega)] at hs; simp at hs
            exact ⟨by rw [b2, a2], by rw [b3, a3], c2, c1, by omega⟩
    | actionList n =>
      simp only [hkind] at he2
      cases hf : (lastIndices (cfg.actionLists.map (·.name))).find n with
      | none => rw [hf] at he2; simp at he2
      | some i =>
        simp only [hf] at he2
        injection he2 with he2
        subst he2
        refine ⟨rfl, rfl, rfl, ?_⟩
        unfold KindIndices
        simp only [hkind]
        obtain ⟨kn, c1, -⟩ := lastIndices_some hf
        exact ⟨by rw [b3, a3], by omega⟩
    | activity n =>
      simp only [hkind] at he2
      cases hf : a.map.find n with
      | none => rw [hf] at he2; simp at he2
      | some i =>
        simp only [hf] at he2
        injection he2 with he2
        subst he2
        refine ⟨rfl, rfl, rfl, ?_⟩
        unfold KindIndices
        simp only [hkind]
        exact ⟨by rw [b1, a1], by rw [b2, a2], by rw [b3, a3]⟩
    | replay n =>
      simp only [hkind] at he2
      cases hf : tr.find n with
      | none => rw [hf] at he2; simp at he2
      | some i =>
        simp only [hf] at he2
        injection he2 with he2
        subst he2
        refine ⟨rfl, rfl, rfl, ?_⟩
        unfold KindIndices
        simp only [hkind]
        obtain ⟨c1, -, c3, -⟩ := initTraces_ok htr
        rcases (c1 n).1 (by rw [hf]; simp) with h2 | ⟨y, hy, hny⟩
        · exact absurd rfl h2
        · obtain ⟨m, hm, hmy⟩ := List.mem_iff_getElem.1 hy
          have := c3 m y (by rw [List.getElem?_eq_getElem hm, hmy])
          rw [hny, hf] at this
          injection this with this
          omega
  obtain ⟨d1, d2⟩ := resolveDeps_ok hdeps
  refine ⟨?_, ?_, ?_, ?_⟩
  · rw [← hsp]; exact hdel.2.2.2
  · intro v hv
    rw [← hsp] at hv
    simp only at hv
    obtain ⟨m, hm, hmv⟩ := List.mem_iff_getElem.1 hv
    obtain ⟨w, hw1, hw2, hw3⟩ := d2 m _ (List.getElem?_eq_getElem (show m < _ by omega))
    rw [List.getElem?_eq_getElem hm, hmv] at hw1
    injection hw1 with hw1
    subst hw1
    obtain ⟨kn, c1, -⟩ := lastIndices_some hw2
    exact ⟨by omega, by omega⟩
  · rw [← hsp]
    simp only
    rw [hdel.2.1, hdel.1, b4, b0]
  · rw [← hsp]
    simp only
    rw [hdel.2.2.1, hdel.1, b5, b0]
    intro ho
    have hne := a5 ho
    rw [a4] at hne ⊢
    unfold getPayloadSizeIndex at hne ⊢
    cases hf : findPayload p pn with
    | none => rw [hf] at hne; simp at hne
    | some q =>
      simp only [hf] at hne ⊢
      cases hq : q.sizeDistributionName with
      | none => rw [hq] at hne; simp at hne
      | some dn =>
        simp only [hq] at hne ⊢
        exact ((initGens_index hsg dn).2 hne).1

theorem loaded_backwards {cfg : Tables.Config} {svc : Str} {c : Ctx} (h : Loaded cfg svc c) :
    Backwards c := by
  obtain ⟨e, t, k, h1, h2, -⟩ := h
  intro i d hd
  unfold Ctx.deps at hd
  cases ha : c.entry.listActions[i]? with
  | none => rw [ha] at hd; simp at hd
  | some a =>
    simp only [ha, List.mem_map] at hd
    obtain ⟨v, hv, rfl⟩ := hd
    obtain ⟨-, h3, -, -⟩ := loaded_entry h1 h2 ha
    have := h3 v hv
    omega

/-- What initiating an accepted action does, by its kind. -/
theorem loaded_initiate {cfg : Tables.Config} {svc : Str} {c : Ctx} (h : Loaded cfg svc c) {i : Nat}
    {a : ActionEntry} (ha : c.entry.listActions[i]? = some a) :
    initiate c.rpcTable c.hasPeers a =
      match a.proto.kind with
      | .none => if a.responsePayloadOverrideIndex ≥ 0 then .runs a.responsePayloadOverrideIndex
          else .crash
      | .rpc _ =>
        if (∃ r, c.rpcTable[a.rpcIndex.toNat]? = some r ∧ r.definition.allowedFromThisClient = true) ∧
          c.hasPeers a.rpcServiceIndex = true then .runs (-1) else .stuck
      | .activity _ =>
        if (a.proto.iterations.bind (·.openLoopIntervalNs)).isSome then .crash else .runs (-1)
      | _ => .runs (-1) := by
  obtain ⟨e, t, k, h1, h2, h3⟩ := h
  obtain ⟨h4, -, -, -⟩ := loaded_entry h1 h2 ha
  unfold KindIndices at h4
  unfold initiate
  cases hk : a.proto.kind with
  | none =>
    rw [hk] at h4
    obtain ⟨g1, g2, g3⟩ := h4
    rw [if_neg (by omega), if_neg (by omega), if_neg (by omega)]
  | rpc n =>
    rw [hk] at h4
    obtain ⟨g1, g2, g3, g4, g5⟩ := h4
    rw [← h3] at g5
    rw [if_neg (by omega), if_neg (by omega), if_pos g3, List.getElem?_eq_getElem g5]
    simp only [Option.some.injEq, exists_eq_left', Bool.not_eq_true']
    grind
  | actionList n =>
    rw [hk] at h4
    rw [if_neg (by omega), if_pos h4.2]
  | activity n =>
    rw [hk] at h4
    obtain ⟨g1, g2, g3⟩ := h4
    rw [if_neg (by omega), if_neg (by omega), if_neg (by omega)]
  | replay n =>
    rw [hk] at h4
    rw [if_pos h4]

theorem loaded_sane {cfg : Tables.Config} {svc : Str} {c : Ctx} (h : Loaded cfg svc c) : Sane c := by
  constructor
  · intro i a o ha ho
    rw [loaded_initiate h ha] at ho
    unfold overrideOf
    rw [ha]
    cases hk : a.proto.kind <;> simp only [hk] at ho ⊢ <;> (try split at ho) <;> simp_all
  · intro i a ha hact
    rw [loaded_initiate h ha]
    unfold isActivity at hact
    cases hk : a.proto.kind <;> simp only [hk] at hact ⊢ <;> (try split) <;> simp_all

end Distbench.ActionList
