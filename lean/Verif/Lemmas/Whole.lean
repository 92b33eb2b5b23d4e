import Verif.Spec.Whole
import Verif.Props.Config
import Verif.Props.Fanout
import Verif.Props.Traffic

/-! Lemmas for Props/Whole.lean: the tables of the engines of a test. -/

namespace Distbench.Whole
open Tables Services Spec

/-! ### Engines -/

theorem mem_places {cfg : Config} {p : Nat × Nat} :
    p ∈ places cfg ↔ ∃ s, cfg.services[p.1]? = some s ∧ p.2 < s.getCount.toNat := by
  obtain ⟨i, n⟩ := p
  simp only [places, List.mem_flatMap, List.mem_map, List.mem_range, Prod.exists, Prod.mk.injEq]
  constructor
  · rintro ⟨s, j, h1, m, h2, rfl, rfl⟩
    exact ⟨s, List.mem_zipIdx_iff_getElem?.1 h1, h2⟩
  · rintro ⟨s, h1, h2⟩
    exact ⟨s, i, List.mem_zipIdx_iff_getElem?.2 h1, n, h2, rfl, rfl⟩

theorem engineAt_place {cfg : Config} {i n e : Nat} (h : engineAt cfg i n = some e) :
    (places cfg)[e]? = some (i, n) := by
  unfold engineAt at h
  rw [List.idxOf?_eq_some_iff] at h
  obtain ⟨hlt, h1, -⟩ := h
  rw [List.getElem?_eq_getElem hlt]
  simpa using h1

theorem engineAt_exists {cfg : Config} {i n : Nat} {s : ServiceSpec} (h : cfg.services[i]? = some s)
    (hn : n < s.getCount.toNat) : ∃ e, engineAt cfg i n = some e := by
  cases he : engineAt cfg i n with
  | some e => exact ⟨e, rfl⟩
  | none =>
    unfold engineAt at he
    rw [List.idxOf?_eq_none_iff] at he
    exact absurd (mem_places.2 ⟨s, h, hn⟩) he

theorem serviceOf_some {cfg : Config} {e i : Nat} :
    serviceOf cfg e = some i ↔ ∃ n, (places cfg)[e]? = some (i, n) := by
  unfold serviceOf
  constructor
  · intro h
    obtain ⟨p, hp, rfl⟩ := Option.map_eq_some_iff.1 h
    exact ⟨p.2, hp⟩
  · rintro ⟨n, h⟩
    rw [h]
    rfl

theorem service_exists {cfg : Config} {e i : Nat} (h : serviceOf cfg e = some i) :
    ∃ s, cfg.services[i]? = some s := by
  obtain ⟨n, h⟩ := serviceOf_some.1 h
  obtain ⟨s, hs, -⟩ := mem_places.1 (List.mem_of_getElem? h)
  exact ⟨s, hs⟩

/-! ### Tables -/

theorem names_inj {α : Type} {f : α → Str} {l : List α} (h : (l.map f).Nodup) {i j : Nat} {a b : α}
    (ha : l[i]? = some a) (hb : l[j]? = some b) (he : f a = f b) : i = j := by
  have hi : i < (l.map f).length := by
    rw [List.length_map]; exact (List.getElem?_eq_some_iff.1 ha).1
  refine (List.getElem?_inj hi h).1 ?_
  rw [List.getElem?_map, List.getElem?_map, ha, hb]
  exact congrArg some he

/-- The indices that an action does not use stay -1. -/
theorem unused_indices {e : Env} {cfg : Config} {svc : Str} {t : Tables} (h : initTables e cfg svc = .ok t)
    {l : Nat} {x : ActionEntry} (hx : x ∈ actionsOf t l) :
    ((∀ n, x.proto.kind ≠ .rpc n) → x.rpcServiceIndex = -1) ∧
    ((∀ n, x.proto.kind ≠ .actionList n) → x.actionlistIndex = -1) ∧
    ((∀ n, x.proto.kind ≠ .replay n) → x.rpcReplayTraceIndex = -1) := by
  obtain ⟨-, -, -, -, -, -, -, -, hlists, -⟩ := initTables_phases h
  unfold actionsOf at hx
  cases hl : t.actionLists[l]? with
  | none => rw [hl] at hx; cases hx
  | some entry =>
    rw [hl] at hx
    obtain ⟨h1, h2⟩ := mapIdx_ok hlists
    have hlt : l < cfg.actionLists.length := by
      have := (List.getElem?_eq_some_iff.1 hl).1
      omega
    obtain ⟨entry', he, hb⟩ := h2 l _ (List.getElem?_eq_getElem hlt)
    rw [hl] at he
    cases he
    simp only [buildActionList, Outcome.bind_ok] at hb
    obtain ⟨first, hfirst, second, hsecond, hb⟩ := hb
    injection hb with hb
    subst hb
    obtain ⟨f1, f2⟩ := mapIdx_ok hfirst
    obtain ⟨s1, s2⟩ := mapIdx_ok hsecond
    obtain ⟨j, hj⟩ := List.getElem?_of_mem hx
    have hj2 : j < first.length := by
      have := (List.getElem?_eq_some_iff.1 hj).1
      simp only [Option.map_some, Option.getD_some] at this
      omega
    obtain ⟨x', hx', hsp⟩ := s2 j _ (List.getElem?_eq_getElem hj2)
    simp only [Option.map_some, Option.getD_some] at hj
    rw [hj] at hx'
    cases hx'
    obtain ⟨x0, hx0, hfp⟩ := f2 j _ (List.getElem?_eq_getElem (by omega))
    rw [List.getElem?_eq_getElem hj2] at hx0
    cases hx0
    generalize first[j] = y at hfp hsp
    simp only [secondPass, Outcome.bind_ok] at hsp
    obtain ⟨e1, he1, e2, he2, deps, hdeps, hsp⟩ := hsp
    injection hsp with hsp
    subst hsp
    have k0 : y.rpcServiceIndex = -1 ∧ y.actionlistIndex = -1 ∧ y.rpcReplayTraceIndex = -1 := by
      unfold firstPass at hfp
      dsimp only at hfp
      repeat' split at hfp
      all_goals first
        | (cases hfp; exact ⟨rfl, rfl, rfl⟩)
        | cases hfp
    have k1 : e1.rpcServiceIndex = -1 ∧ e1.actionlistIndex = -1 ∧ e1.rpcReplayTraceIndex = -1 := by
      unfold resolveDelay at he1
      repeat' split at he1
      all_goals first
        | (cases he1; exact k0)
        | cases he1
    unfold resolveKind at he2
    split at he2
    · next hk => cases he2; exact ⟨fun _ => k1.1, fun _ => k1.2.1, fun _ => k1.2.2⟩
    · next hk =>
      repeat' split at he2
      all_goals first
        | (cases he2; exact ⟨fun hn => absurd hk (hn _), fun _ => k1.2.1, fun _ => k1.2.2⟩)
        | cases he2
    · next hk =>
      repeat' split at he2
      all_goals first
        | (cases he2; exact ⟨fun _ => k1.1, fun hn => absurd hk (hn _), fun _ => k1.2.2⟩)
        | cases he2
    · next hk =>
      repeat' split at he2
      all_goals first
        | (cases he2; exact ⟨fun _ => k1.1, fun _ => k1.2.1, fun _ => k1.2.2⟩)
        | cases he2
    · next hk =>
      repeat' split at he2
      all_goals first
        | (cases he2; exact ⟨fun _ => k1.1, fun _ => k1.2.1, fun hn => absurd hk (hn _)⟩)
        | cases he2

/-- The engines of all services have the same action lists. -/
theorem same_lists {e : Env} {cfg : Config} {a b : Str} {t u : Tables} (h1 : initTables e cfg a = .ok t)
    (h2 : initTables e cfg b = .ok u) : t.actionLists = u.actionLists := by
  obtain ⟨a1, a2, a3, a4, a5, a6, a7, a8, a9, a10⟩ := initTables_phases h1
  obtain ⟨b1, b2, b3, b4, b5, b6, b7, b8, b9, b10⟩ := initTables_phases h2
  have e2 : t.rpcGens = u.rpcGens := by rw [a2] at b2; injection b2
  have e3 : t.delayGens = u.delayGens := by rw [a3] at b3; injection b3
  have e4 : t.sizeGens = u.sizeGens := by rw [a4] at b4; injection b4
  have e5 : t.payloads = u.payloads := by rw [e4, b5] at a5; injection a5 with a5; exact a5.symm
  have e7 : t.activities = u.activities := by rw [a7] at b7; injection b7
  have e8 : t.traces = u.traces := by rw [a8] at b8; injection b8
  have er : resolverOf cfg t = resolverOf cfg u := by
    unfold resolverOf
    rw [a1, b1, e3, e4, e5, e7, e8]
  rw [er, b9] at a9
  injection a9 with a9
  exact a9.symm

theorem rpcTable_length {e : Env} {cfg : Config} {svc : Str} {t : Tables} (h : initTables e cfg svc = .ok t) :
    t.rpcTable.length = cfg.rpcs.length := by
  obtain ⟨-, -, -, -, -, -, -, -, -, h⟩ := initTables_phases h
  exact (mapIdx_ok h).1

theorem lists_length {e : Env} {cfg : Config} {svc : Str} {t : Tables} (h : initTables e cfg svc = .ok t) :
    t.actionLists.length = cfg.actionLists.length := by
  obtain ⟨-, -, -, -, -, -, -, -, h, -⟩ := initTables_phases h
  exact (mapIdx_ok h).1

/-- What the tables of the engines of a service say about an RPC. -/
theorem rpc_entry {e : Env} {w : Test} (hs : SoundTest e w) {i q : Nat} {s : ServiceSpec} {r : RpcEntry}
    (hi : w.cfg.services[i]? = some s) (hr : (w.tables i).rpcTable[q]? = some r) :
    ∃ spec, w.cfg.rpcs[q]? = some spec ∧ r.definition.spec = spec ∧
      (r.allowed = true ↔ spec.server = s.name) ∧
      (r.definition.allowedFromThisClient = true ↔ s.name ∈ spec.client) ∧
      (∃ (k : Nat) (sv : ServiceSpec), r.serviceIndex = k ∧ w.cfg.services[k]? = some sv ∧ sv.name = spec.server ∧
        r.definition.serverSpec = sv) ∧
      (Fanout.initializeRpcFanoutFilter e.atof spec.fanoutFilter = .ok r.definition.fanout) ∧
      ∃ (k : Nat) (l : ActionList), w.cfg.actionLists[k]? = some l ∧ l.name = spec.name ∧
        ((l.actionNames = [] ∧ r.handlerActionlistIndex = -1) ∨
          (l.actionNames ≠ [] ∧ r.handlerActionlistIndex = k)) := by
  have ht := hs.tables i s hi
  have hlt : q < w.cfg.rpcs.length := by
    rw [← rpcTable_length ht]
    exact (List.getElem?_eq_some_iff.1 hr).1
  have hq := List.getElem?_eq_getElem hlt
  obtain ⟨r', h1, h2, h3, h4, ⟨k, hk, sv, hsv, hn⟩, h6⟩ := (C74_rpc_bindings _ _ _ _ hs.distinct ht).1 q _ hq
  rw [hr] at h1
  cases h1
  obtain ⟨r'', g1, g2, -⟩ := rpcTable_definition hs.distinct.rpcs ht hq
  rw [hr] at g1
  cases g1
  obtain ⟨-, -, -, -, si, sv', d1, d2, d3, -, d5⟩ := rpcDefinition_ok g2
  refine ⟨_, hq, h2, ?_, h4, ⟨k, sv, hk, hsv, hn, ?_⟩, d5, h6⟩
  · rw [h3]
  · have hsn : sv'.name = w.cfg.rpcs[q].server := by
      obtain ⟨h0, -⟩ := initTables_phases ht
      rw [h0] at d1
      unfold enumerateServiceTypes at d1
      obtain ⟨m, hm, hmn⟩ := List.mem_iff_getElem.1 (enumerate_some d1).1
      have e1 := (enumerate_spec _ hs.distinct.services).2.1 m hm
      rw [hmn, d1] at e1
      injection e1 with e1
      rw [e1, Int.toNat_natCast] at d2
      rw [List.getElem_map] at hmn
      rw [List.length_map] at hm
      rw [List.getElem?_eq_getElem hm] at d2
      injection d2 with d2
      rw [← d2, hmn]
    rw [d3]
    have := names_inj hs.distinct.services hsv d2 (hn.trans hsn.symm)
    rw [this] at hsv
    rw [hsv] at d2
    cases d2
    rfl

/-! ### The test as a whole -/

/-- The test as seen from outside, by the tables of the first service. -/
def globalConfig (w : Test) (fan : Nat → Nat) : Traffic.Config :=
  { actions := fun l => (actionsOf (w.tables 0) l).map (toAction fan)
    handler := fun q => match (w.tables 0).rpcTable[q]? with
      | none => none
      | some r => if 0 ≤ r.handlerActionlistIndex then some r.handlerActionlistIndex.toNat else none
    servers := fun q e' => (serverOf (w.tables 0) q).isSome &&
      decide (serviceOf w.cfg e' = serverOf (w.tables 0) q)
    threads := w.threads
    roots := roots w.cfg }

theorem first_service {e : Env} {w : Test} (hs : SoundTest e w) : ∃ s, w.cfg.services[0]? = some s := by
  cases h : w.cfg.services with
  | nil => exact absurd h hs.some_service
  | cons s rest => exact ⟨s, rfl⟩

/-- The engines of all services agree about the lists. -/
theorem same_actions {e : Env} {w : Test} (hs : SoundTest e w) {i : Nat} {s : ServiceSpec}
    (hi : w.cfg.services[i]? = some s) (l : Nat) : actionsOf (w.tables i) l = actionsOf (w.tables 0) l := by
  obtain ⟨s0, h0⟩ := first_service hs
  unfold actionsOf
  rw [same_lists (hs.tables i s hi) (hs.tables 0 s0 h0)]

/-- They agree about servers and handlers. -/
theorem same_rpc {e : Env} {w : Test} (hs : SoundTest e w) {i q : Nat} {s : ServiceSpec}
    (hi : w.cfg.services[i]? = some s) :
    (w.tables i).rpcTable[q]? = none ∧ (w.tables 0).rpcTable[q]? = none ∨
    ∃ r r0, (w.tables i).rpcTable[q]? = some r ∧ (w.tables 0).rpcTable[q]? = some r0 ∧
      r.serviceIndex = r0.serviceIndex ∧ r.handlerActionlistIndex = r0.handlerActionlistIndex := by
  obtain ⟨s0, h0⟩ := first_service hs
  have l1 := rpcTable_length (hs.tables i s hi)
  have l2 := rpcTable_length (hs.tables 0 s0 h0)
  by_cases hq : q < w.cfg.rpcs.length
  · right
    have g1 := List.getElem?_eq_getElem (l := (w.tables i).rpcTable) (i := q) (by omega)
    have g2 := List.getElem?_eq_getElem (l := (w.tables 0).rpcTable) (i := q) (by omega)
    refine ⟨_, _, g1, g2, ?_⟩
    obtain ⟨sp, a1, -, -, -, ⟨k, sv, a2, a3, a4, -⟩, -, m, al, a5, a6, a7⟩ := rpc_entry hs hi g1
    obtain ⟨sp', b1, -, -, -, ⟨k', sv', b2, b3, b4, -⟩, -, m', al', b5, b6, b7⟩ := rpc_entry hs h0 g2
    rw [a1] at b1
    cases b1
    have e1 := names_inj hs.distinct.services a3 b3 (a4.trans b4.symm)
    have e2 := names_inj hs.distinct.lists a5 b5 (a6.trans b6.symm)
    subst e1 e2
    rw [a5] at b5
    cases b5
    refine ⟨by rw [a2, b2], ?_⟩
    rcases a7 with ⟨a7, a8⟩ | ⟨a7, a8⟩ <;> rcases b7 with ⟨b7, b8⟩ | ⟨b7, b8⟩
    · rw [a8, b8]
    · exact absurd a7 b7
    · exact absurd b7 a7
    · rw [a8, b8]
  · exact .inl ⟨List.getElem?_eq_none (by omega), List.getElem?_eq_none (by omega)⟩

theorem same_server {e : Env} {w : Test} (hs : SoundTest e w) {i : Nat} {s : ServiceSpec}
    (hi : w.cfg.services[i]? = some s) (q : Nat) : serverOf (w.tables i) q = serverOf (w.tables 0) q := by
  unfold serverOf
  rcases same_rpc hs hi (q := q) with ⟨h1, h2⟩ | ⟨r, r0, h1, h2, h3, -⟩
  · rw [h1, h2]
  · rw [h1, h2]
    simp [h3]

/-- The engine that an RPC goes to agrees about its handler. -/
theorem same_handler {e : Env} {w : Test} (hs : SoundTest e w) (fan : Nat → Nat) {i q t : Nat} {s : ServiceSpec}
    (hi : w.cfg.services[i]? = some s) (ht : serviceOf w.cfg t = some i)
    (hq : (globalConfig w fan).servers q t = true) :
    handlerOf (w.tables i) q = (globalConfig w fan).handler q := by
  simp only [globalConfig, Bool.and_eq_true, decide_eq_true_eq] at hq ⊢
  unfold handlerOf
  rcases same_rpc hs hi (q := q) with ⟨h1, h2⟩ | ⟨r, r0, h1, h2, h3, h4⟩
  · rw [h1, h2]
  · rw [h1, h2]
    dsimp only
    obtain ⟨sp, -, -, a3, -, ⟨k, sv, a4, a5, a6, -⟩, -⟩ := rpc_entry hs hi h1
    have hk : some i = some k := by
      rw [← ht, hq.2, serverOf, h2]
      simp only [Option.map_some, ← h3, a4, Int.toNat_natCast]
    cases hk
    rw [hi] at a5
    cases a5
    rw [h4]
    by_cases hh : 0 ≤ r0.handlerActionlistIndex
    · rw [if_pos ⟨a3.2 a6.symm, hh⟩, if_pos hh]
    · rw [if_neg (fun h => hh h.2), if_neg hh]

/-! ### Steps do not depend on the fan-out of other RPCs -/

theorem newJob_congr {c c' : Traffic.Config} {L : Nat → List ActionEntry} {f f' : Nat → Nat}
    (h : ∀ l, c.actions l = (L l).map (toAction f)) (h' : ∀ l, c'.actions l = (L l).map (toAction f'))
    (e l : Nat) (p : Traffic.Parent) : Traffic.newJob c e l p = Traffic.newJob c' e l p := by
  unfold Traffic.newJob
  rw [h, h', List.map_map, List.map_map]
  rfl

theorem toWork_cases (f : Nat → Nat) (x : ActionEntry) :
    (∃ q, ∀ g, toWork g x = .rpc q (g q)) ∨
      (∀ g, toWork g x = toWork f x) ∧ ∀ q k, toWork f x ≠ .rpc q k := by
  unfold toWork
  by_cases h1 : 0 ≤ x.rpcReplayTraceIndex
  · refine .inr ⟨fun g => by rw [if_pos h1, if_pos h1], fun q k => ?_⟩
    rw [if_pos h1]
    exact fun h => by cases h
  · by_cases h2 : 0 ≤ x.actionlistIndex
    · refine .inr ⟨fun g => by rw [if_neg h1, if_neg h1, if_pos h2, if_pos h2], fun q k => ?_⟩
      rw [if_neg h1, if_pos h2]
      exact fun h => by cases h
    · by_cases h3 : 0 ≤ x.rpcServiceIndex
      · exact .inl ⟨x.rpcIndex.toNat, fun g => by rw [if_neg h1, if_neg h2, if_pos h3]⟩
      · refine .inr ⟨fun g => by rw [if_neg h1, if_neg h1, if_neg h2, if_neg h2, if_neg h3, if_neg h3],
          fun q k => ?_⟩
        rw [if_neg h1, if_neg h2, if_neg h3]
        exact fun h => by cases h

theorem step_congr {c c' : Traffic.Config} {L : Nat → List ActionEntry} {f f' : Nat → Nat}
    (h : ∀ l, c.actions l = (L l).map (toAction f)) (h' : ∀ l, c'.actions l = (L l).map (toAction f'))
    (ht : c.threads = c'.threads) {s : Traffic.State} {op : Traffic.Op}
    (hh : ∀ k r, (op = .deliver k ∨ op = .dispatch k) → s.calls[k]? = some r → c.handler r.rpc = c'.handler r.rpc)
    (hi : ∀ j a targets job x q, op = .iterate j a targets → s.jobs[j]? = some job →
      (L job.list)[a]? = some x → toWork f x = .rpc q (f q) →
      f q = f' q ∧ ∀ t ∈ targets, c.servers q t = c'.servers q t) :
    Traffic.step c s op = Traffic.step c' s op := by
  have hget : ∀ (l a : Nat), (c.actions l)[a]? = ((L l)[a]?).map (toAction f) ∧
      (c'.actions l)[a]? = ((L l)[a]?).map (toAction f') := by
    intro l a
    rw [h, h', List.getElem?_map, List.getElem?_map]
    exact ⟨rfl, rfl⟩
  have hlen : ∀ l, (c.actions l).length = (c'.actions l).length := by
    intro l
    rw [h, h', List.length_map, List.length_map]
  have hst : ∀ j a, (∃ job x, Traffic.startable c s j a = some (job, toAction f x) ∧
        Traffic.startable c' s j a = some (job, toAction f' x)) ∨
      (Traffic.startable c s j a = none ∧ Traffic.startable c' s j a = none) := by
    intro j a
    unfold Traffic.startable
    cases s.jobs[j]? with
    | none => exact .inr ⟨rfl, rfl⟩
    | some job =>
      dsimp only
      rw [(hget _ _).1, (hget _ _).2]
      cases (L job.list)[a]? with
      | none => exact .inr ⟨rfl, rfl⟩
      | some x =>
        simp only [Option.map_some]
        have : Traffic.ready job (toAction f x) = Traffic.ready job (toAction f' x) := rfl
        rw [this]
        split
        · exact .inl ⟨job, x, rfl, rfl⟩
        · exact .inr ⟨rfl, rfl⟩
  have hdes : ∀ job x a, Traffic.designate c job (toAction f x) a = Traffic.designate c' job (toAction f' x) a := by
    intro job x a
    unfold Traffic.designate
    rw [hlen]
    rfl
  cases op with
  | start j a =>
    rcases hst j a with ⟨job, x, h1, h2⟩ | ⟨h1, h2⟩
    · rw [Traffic.step, Traffic.step, h1, h2]
      dsimp only
      rw [hdes]
      rfl
    · rw [Traffic.step, Traffic.step, h1, h2]
  | skip j a =>
    rcases hst j a with ⟨job, x, h1, h2⟩ | ⟨h1, h2⟩
    · rw [Traffic.step, Traffic.step, h1, h2]
      dsimp only
      rw [hdes]
      rfl
    · rw [Traffic.step, Traffic.step, h1, h2]
  | iterate j a targets =>
    rw [Traffic.step, Traffic.step]
    cases hj : s.jobs[j]? with
    | none => rfl
    | some job =>
      dsimp only
      rw [(hget _ _).1, (hget _ _).2]
      cases hx : (L job.list)[a]? with
      | none => rfl
      | some x =>
        simp only [Option.map_some]
        have w1 : (toAction f x).iters = (toAction f' x).iters := rfl
        have w2 : (toAction f x).parallel = (toAction f' x).parallel := rfl
        have e1 : (toAction f x).work = toWork f x := rfl
        have e2 : (toAction f' x).work = toWork f' x := rfl
        cases hact : job.acts[a]? with
        | none => rfl
        | some y =>
          cases y with
          | waiting => rfl
          | finished => rfl
          | skipped => rfl
          | running n =>
            cases n with
            | zero => rfl
            | succ left =>
              dsimp only
              rw [w1, w2, e1, e2]
              rcases toWork_cases f x with ⟨q, hq⟩ | ⟨hq, hne⟩
              · obtain ⟨g1, g2⟩ := hi j a targets job x q rfl hj hx (hq f)
                rw [hq, hq, g1]
                have hall : (targets.all fun t => c.servers q t) = targets.all fun t => c'.servers q t := by
                  rw [Bool.eq_iff_iff, List.all_eq_true, List.all_eq_true]
                  constructor
                  · intro hh t ht; rw [← g2 t ht]; exact hh t ht
                  · intro hh t ht; rw [g2 t ht]; exact hh t ht
                dsimp only
                rw [hall]
              · rw [hq f']
                cases hwk : toWork f x with
                | rpc q k => exact absurd hwk (hne q k)
                | list l =>
                  dsimp only
                  rw [newJob_congr h h']
                | other => rfl
  | finish j a =>
    rw [Traffic.step, Traffic.step]
    cases hj : s.jobs[j]? with
    | none => rfl
    | some job =>
      dsimp only
      rw [(hget _ _).1, (hget _ _).2]
      cases hx : (L job.list)[a]? with
      | none => rfl
      | some x =>
        cases hact : job.acts[a]? with
        | none => rfl
        | some y =>
          cases y with
          | running n => cases n <;> rfl
          | waiting => rfl
          | finished => rfl
          | skipped => rfl
  | deliver k =>
    rw [Traffic.step, Traffic.step]
    cases hr : s.calls[k]? with
    | none => rfl
    | some r =>
      dsimp only
      rw [hh k r (.inl rfl) hr]
  | dispatch k =>
    rw [Traffic.step, Traffic.step]
    cases hr : s.calls[k]? with
    | none => rfl
    | some r =>
      dsimp only
      rw [hh k r (.inr rfl) hr]
      have : Traffic.freeThread c s r.target = Traffic.freeThread c' s r.target := by
        unfold Traffic.freeThread
        rw [ht]
      rw [this]
      cases c'.handler r.rpc with
      | none => rfl
      | some l =>
        dsimp only
        rw [newJob_congr h h']
  | endJob j => rfl
  | complete k => rfl

end Distbench.Whole
