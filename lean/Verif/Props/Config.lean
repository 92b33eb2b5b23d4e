import Verif.Props.Distribution
import Verif.Props.Tables
import Verif.Props.Services

/-! Properties of configuration checking: replay traces (C42), activities (C68), payload sizes
(C69), channels (C70), predicate names (C71), RPC names (C72), size distributions (C73), RPC
handlers (C74), whole-configuration validation (C75), canonical descriptions (C76), fields of distributions (C253). -/

namespace Distbench
open Tables Services Spec

/-! ### C42: replay traces -/

private theorem validateRecords_iff {cs ss : Int} {d : TraceRecord} {rs : List TraceRecord} :
    validateRecords cs ss d rs = .ok () ↔
    ∀ r ∈ rs, (r.serverInstance.or d.serverInstance).getD 0 ≤ ss ∧
      (r.clientInstance.or d.clientInstance).getD 0 ≤ cs := by
  induction rs with
  | nil => simp [validateRecords]
  | cons r rs ih =>
    have hs : (mergedRecord d r).serverInstance = r.serverInstance.or d.serverInstance := rfl
    have hc : (mergedRecord d r).clientInstance = r.clientInstance.or d.clientInstance := rfl
    rw [validateRecords, List.forall_mem_cons, ← ih, hs, hc]
    split
    · simp only [reduceCtorEq, false_iff]
      rintro ⟨⟨h, -⟩, -⟩
      omega
    · split
      · simp only [reduceCtorEq, false_iff]
        rintro ⟨⟨-, h⟩, -⟩
        omega
      · constructor
        · intro h; exact ⟨⟨by omega, by omega⟩, h⟩
        · intro h; exact h.2

/-- C42 (partial).  A trace is accepted iff it names a client and a server service that exist and
every record's server and client instance (its own, or else the default one, or else 0) is at most
the number of instances.  Missing from the full property: instances equal to the number of
instances or negative are accepted, and distances are not looked at. -/
theorem C42_accepted_iff_partial (t : RpcReplayTrace) (sizes : NameMap) :
    validateRpcReplayTrace t sizes = .ok () ↔
    ∃ client server cs ss, t.client = some client ∧ t.server = some server ∧
      sizes.find client = some cs ∧ sizes.find server = some ss ∧
      ∀ r ∈ t.records, (r.serverInstance.or t.defaults.serverInstance).getD 0 ≤ ss ∧
        (r.clientInstance.or t.defaults.clientInstance).getD 0 ≤ cs := by
  unfold validateRpcReplayTrace
  cases hc : t.client with
  | none => simp
  | some client =>
    cases hs : t.server with
    | none => simp
    | some server =>
      simp only [Option.some.injEq, exists_and_left, exists_eq_left']
      cases hcs : sizes.find client with
      | none => simp
      | some cs =>
        cases hss : sizes.find server with
        | none => simp
        | some ss => simpa using validateRecords_iff

/-- Traces that only name existing instances of existing services are accepted. -/
theorem C42_valid_accepted (t : RpcReplayTrace) (services : List ServiceSpec)
    (hnd : (services.map (·.name)).Nodup) (c s : ServiceSpec) (hc : c ∈ services) (hs : s ∈ services)
    (h1 : t.client = some c.name) (h2 : t.server = some s.name)
    (hr : ∀ r ∈ t.records,
      (r.serverInstance.or t.defaults.serverInstance).getD 0 < s.count.getD 0 ∧
      (r.clientInstance.or t.defaults.clientInstance).getD 0 < c.count.getD 0) :
    validateRpcReplayTrace t (enumerateServiceSizes services) = .ok () := by
  rw [C42_accepted_iff_partial]
  have key : ∀ (services : List ServiceSpec) (m : NameMap), (services.map (·.name)).Nodup →
      (∀ s ∈ services, (services.foldl (fun ret s => ret.set s.name s.getCount) m).find s.name
        = some (s.count.getD 0)) ∧
      (∀ n, n ∉ services.map (·.name) →
        (services.foldl (fun ret s => ret.set s.name s.getCount) m).find n = m.find n) := by
    intro services
    induction services with
    | nil => intro m _; exact ⟨by simp, fun n _ => rfl⟩
    | cons s services ih =>
      intro m hnd
      rw [List.map_cons, List.nodup_cons] at hnd
      obtain ⟨h1, h2⟩ := ih (m.set s.name s.getCount) hnd.2
      rw [List.foldl_cons]
      constructor
      · intro x hx
        rcases List.mem_cons.1 hx with rfl | hx
        · rw [h2 _ hnd.1, NameMap.find_set_self]; rfl
        · exact h1 x hx
      · intro n hn
        rw [List.map_cons, List.mem_cons, not_or] at hn
        rw [h2 n hn.2, NameMap.find_set_ne _ _ hn.1]
  have hk := (key services [] hnd).1
  refine ⟨_, _, _, _, h1, h2, hk c hc, hk s hs, ?_⟩
  intro r hrm
  have := hr r hrm
  omega

/-- The full property fails: this trace of a service with two instances is accepted although its
first record goes to instance 2, its second comes from instance -1 and its third looks back past
the start of the trace. -/
theorem C42_out_of_range_accepted :
    ∃ (services : List ServiceSpec) (t : RpcReplayTrace),
      services.map (·.count) = [some 2] ∧
      validateRpcReplayTrace t (enumerateServiceSizes services) = .ok () ∧
      t.records.map (·.serverInstance) = [some 2, some 0, some 0] ∧
      t.records.map (·.clientInstance) = [some 0, some (-1), some 0] ∧
      t.records.map (·.priorRpcDistances) = [[], [], [7]] :=
  ⟨[{ name := "s".toList, count := some 2 }],
   { client := some "s".toList, server := some "s".toList,
     records := [{ serverInstance := some 2, clientInstance := some 0 },
       { serverInstance := some 0, clientInstance := some (-1) },
       { serverInstance := some 0, clientInstance := some 0, priorRpcDistances := [7] }] },
   rfl, by decide, rfl, rfl, rfl⟩

example := C42_valid_accepted
  { client := some "c".toList, server := some "s".toList, defaults := { serverInstance := some 1 },
    records := [{}, { serverInstance := some 2, clientInstance := some 1 }] }
  [{ name := "c".toList, count := some 2 }, { name := "s".toList, count := some 3 }] (by decide)
  { name := "c".toList, count := some 2 } { name := "s".toList, count := some 3 }
  (by simp) (by simp) rfl rfl (by decide)

/-- Accepted tables contain only accepted traces. -/
theorem C42_tables_partial (e : Env) (cfg : Tables.Config) (svc : Str) (t : Tables.Tables)
    (h : initTables e cfg svc = .ok t) :
    (cfg.traces.map (·.name)).Nodup ∧
    ∀ tr ∈ cfg.traces, validateRpcReplayTrace tr (enumerateServiceSizes cfg.services) = .ok () := by
  simp only [initTables, Outcome.bind_ok] at h
  obtain ⟨rg, hrg, dg, hdg, sg, hsg, p, hp, d, hd, a, ha, tr, htr, -⟩ := h
  obtain ⟨-, h2, h3, h4⟩ := initTraces_ok htr
  refine ⟨?_, h4⟩
  unfold List.Nodup
  rw [List.pairwise_iff_getElem]
  intro i j hi hj hij hne
  rw [List.length_map] at hi hj
  rw [List.getElem_map, List.getElem_map] at hne
  have a1 := h3 i _ (List.getElem?_eq_getElem hi)
  have a2 := h3 j _ (List.getElem?_eq_getElem hj)
  rw [hne, a2] at a1
  injection a1 with a1
  omega

/-! ### C68: activities -/

/-- What the parsed configuration of an activity has to satisfy to be runnable. -/
def RunnableActivity (p : ParsedActivity) : Prop :=
  (p.func = "ConsumeCpu".toList ∧ 1 ≤ p.arraySize) ∨
  (p.func = "PolluteDataCache".toList ∧ 1 ≤ p.arraySize ∧ 1 ≤ p.arrayReadsPerIteration) ∨
  p.func = "PolluteInstructionCache".toList ∨
  (p.func = "SleepFor".toList ∧ 1 ≤ p.durationUs) ∨
  (p.func = "SpinFor".toList ∧ 1 ≤ p.durationUs)

private theorem getInt_default {settings : List NamedSetting} {n : Str} {d d' : Int}
    (h : getNamedSettingInt64 settings n d ≠ d) :
    getNamedSettingInt64 settings n d' = getNamedSettingInt64 settings n d := by
  induction settings with
  | nil => simp [getNamedSettingInt64] at h
  | cons s rest ih =>
    rw [getNamedSettingInt64] at h
    conv => lhs; rw [getNamedSettingInt64]
    conv => rhs; rw [getNamedSettingInt64]
    cases hn : s.name with
    | none => simp only [hn] at h ⊢; exact ih h
    | some m =>
      simp only [hn] at h ⊢
      by_cases hm : m ≠ n
      · rw [if_pos hm] at h; rw [if_pos hm, if_pos hm]; exact ih h
      · rw [if_neg hm] at h; rw [if_neg hm, if_neg hm]
        cases hs : s.stringValue with
        | some v => simp only [hs] at h ⊢; exact ih h
        | none =>
          simp only [hs] at h ⊢
          cases hi : s.int64Value with
          | none => simp only [hi] at h ⊢; exact ih h
          | some v => rfl

private theorem getInt_cases (settings : List NamedSetting) (n : Str) (d d' : Int) :
    getNamedSettingInt64 settings n d' = getNamedSettingInt64 settings n d ∨
    (getNamedSettingInt64 settings n d = d ∧ getNamedSettingInt64 settings n d' = d') := by
  by_cases h : getNamedSettingInt64 settings n d = d
  · by_cases h' : getNamedSettingInt64 settings n d' = d'
    · exact .inr ⟨h, h'⟩
    · exact .inl (getInt_default h').symm
  · exact .inl (getInt_default h)

/-- C68 (partial).  An accepted activity configuration names one of the five activities and its
sizes and durations are positive — provided the size settings fit an `int`.  Missing from the full
property: larger settings, which are stored modulo 2^32. -/
theorem C68_accepted_runnable_partial (ac : ActivityConfig) (p : ParsedActivity)
    (hfit : ∀ d, InI32 d →
      InI32 (getNamedSettingInt64 ac.settings "array_size".toList d) ∧
      InI32 (getNamedSettingInt64 ac.settings "array_reads_per_iteration".toList d))
    (h : parseActivityConfig ac = .ok p) : p.name = ac.name ∧ RunnableActivity p := by
  refine ⟨parse_name h, ?_⟩
  unfold parseActivityConfig at h
  simp only at h
  generalize getNamedSettingString ac.settings "activity_func".toList [] = func at h
  split at h
  · rename_i h1
    split at h
    · simp at h
    · injection h with h; subst h
      rw [Dist.toInt32_of (hfit 1000 (by decide)).1]
      exact .inl ⟨h1, by simp only; omega⟩
  · split at h
    · rename_i h1
      split at h
      · simp at h
      · rename_i h2
        split at h
        · simp at h
        · injection h with h; subst h
          rw [Dist.toInt32_of (hfit 2000000 (by decide)).1, Dist.toInt32_of (hfit 1000 (by decide)).2]
          refine .inr (.inl ⟨h1, ?_, by simp only; omega⟩)
          simp only
          rcases getInt_cases ac.settings "array_size".toList 1000 2000000 with h3 | ⟨-, h3⟩
          · rw [h3]; omega
          · rw [h3]; omega
    · split at h
      · rename_i h1
        injection h with h; subst h
        exact .inr (.inr (.inl h1))
      · split at h
        · rename_i h1
          split at h
          · simp at h
          · injection h with h; subst h
            refine .inr (.inr (.inr (.inl ⟨h1, ?_⟩)))
            simp only
            rcases getInt_cases ac.settings "duration_us".toList (-1) 0 with h3 | ⟨h3, -⟩
            · rw [h3]; omega
            · omega
        · split at h
          · rename_i h1
            split at h
            · simp at h
            · injection h with h; subst h
              refine .inr (.inr (.inr (.inr ⟨h1, ?_⟩)))
              simp only
              rcases getInt_cases ac.settings "duration_us".toList (-1) 0 with h3 | ⟨h3, -⟩
              · rw [h3]; omega
              · omega
          · simp at h

/-- A configuration that asks for no known activity is rejected. -/
theorem C68_unknown_rejected (ac : ActivityConfig)
    (h : getNamedSettingString ac.settings "activity_func".toList [] ∉
      ["ConsumeCpu".toList, "PolluteDataCache".toList, "PolluteInstructionCache".toList,
       "SleepFor".toList, "SpinFor".toList]) : ∃ m, parseActivityConfig ac = .error m := by
  simp only [List.mem_cons, List.not_mem_nil, or_false, not_or] at h
  obtain ⟨h1, h2, h3, h4, h5⟩ := h
  unfold parseActivityConfig
  simp only
  rw [if_neg h1, if_neg h2, if_neg h3, if_neg h4, if_neg h5]
  exact ⟨_, rfl⟩

/-- C68.  And every configuration that names one of the five activities is accepted if the sizes, read
counts and durations it needs are positive, or are left out where there is a default; it then has the
values given (those that fit an `int`, see `C68_wrapped_size_accepted`). -/
theorem C68_accepted (ac : ActivityConfig) :
    let func := getNamedSettingString ac.settings "activity_func".toList []
    let value := fun (n : String) (d : Int) => getNamedSettingInt64 ac.settings n.toList d
    (func = "ConsumeCpu".toList → 1 ≤ value "array_size" 1000 → InI32 (value "array_size" 1000) →
      ∃ p, parseActivityConfig ac = .ok p ∧ p.func = func ∧ p.arraySize = value "array_size" 1000) ∧
    (func = "PolluteDataCache".toList → 1 ≤ value "array_size" 2000000 →
      InI32 (value "array_size" 2000000) → 1 ≤ value "array_reads_per_iteration" 1000 →
      InI32 (value "array_reads_per_iteration" 1000) →
      ∃ p, parseActivityConfig ac = .ok p ∧ p.func = func ∧ p.arraySize = value "array_size" 2000000 ∧
        p.arrayReadsPerIteration = value "array_reads_per_iteration" 1000) ∧
    (func = "PolluteInstructionCache".toList → InI32 (value "function_invocations_per_iteration" 1000) →
      ∃ p, parseActivityConfig ac = .ok p ∧ p.func = func ∧
        p.functionInvocationsPerIteration = value "function_invocations_per_iteration" 1000) ∧
    (func = "SleepFor".toList ∨ func = "SpinFor".toList → 1 ≤ value "duration_us" 0 →
      ∃ p, parseActivityConfig ac = .ok p ∧ p.func = func ∧ p.durationUs = value "duration_us" 0) := by
  dsimp only
  refine ⟨?_, ?_, ?_, ?_⟩
  · intro hf h1 h2
    unfold parseActivityConfig
    simp only
    rw [hf, if_pos rfl, if_neg (by omega), Dist.toInt32_of h2]
    exact ⟨_, rfl, rfl, rfl⟩
  · intro hf h1 h2 h3 h4
    have h5 : ¬ getNamedSettingInt64 ac.settings "array_size".toList 1000 < 1 := by
      rcases getInt_cases ac.settings "array_size".toList 2000000 1000 with h | ⟨_, h⟩ <;> omega
    unfold parseActivityConfig
    simp only
    rw [hf, if_neg (by decide), if_pos rfl, if_neg h5, if_neg (by omega), Dist.toInt32_of h2,
      Dist.toInt32_of h4]
    exact ⟨_, rfl, rfl, rfl, rfl⟩
  · intro hf h1
    unfold parseActivityConfig
    simp only
    rw [hf, if_neg (by decide), if_neg (by decide), if_pos rfl, Dist.toInt32_of h1]
    exact ⟨_, rfl, rfl, rfl⟩
  · intro hf h1
    have h5 : ¬ getNamedSettingInt64 ac.settings "duration_us".toList (-1) < 1 := by
      rcases getInt_cases ac.settings "duration_us".toList 0 (-1) with h | ⟨h, _⟩ <;> omega
    unfold parseActivityConfig
    simp only
    rcases hf with hf | hf
    · rw [hf, if_neg (by decide), if_neg (by decide), if_neg (by decide), if_pos rfl, if_neg h5]
      exact ⟨_, rfl, rfl, rfl⟩
    · rw [hf, if_neg (by decide), if_neg (by decide), if_neg (by decide), if_neg (by decide),
        if_pos rfl, if_neg h5]
      exact ⟨_, rfl, rfl, rfl⟩

example : ∃ p, parseActivityConfig
    { settings := [{ name := some "activity_func".toList, stringValue := some "PolluteDataCache".toList },
                   { name := some "array_reads_per_iteration".toList, int64Value := some 1 }] } = .ok p ∧
    p.arraySize = 2000000 ∧ p.arrayReadsPerIteration = 1 := by
  obtain ⟨p, h1, _, h2, h3⟩ := (C68_accepted
    { settings := [{ name := some "activity_func".toList, stringValue := some "PolluteDataCache".toList },
                   { name := some "array_reads_per_iteration".toList, int64Value := some 1 }] }).2.1
    rfl (by decide) (by decide) (by decide) (by decide)
  exact ⟨p, h1, h2, h3⟩

/-- The full property fails: a cache-polluting activity over 2^32 elements is accepted with an
array of no elements, whose index range `0 .. -1` is empty. -/
theorem C68_wrapped_size_accepted :
    ∃ ac p, parseActivityConfig ac = .ok p ∧ p.func = "PolluteDataCache".toList ∧
      getNamedSettingInt64 ac.settings "array_size".toList 0 = 2 ^ 32 ∧ p.arraySize = 0 :=
  ⟨{ settings := [{ name := some "activity_func".toList, stringValue := some "PolluteDataCache".toList },
                  { name := some "array_size".toList, int64Value := some (2 ^ 32) }] },
   _, rfl, rfl, rfl, rfl⟩

/-- Sleep for 25 microseconds. -/
def sleepConfig : ActivityConfig :=
  { name := "nap".toList,
    settings := [{ name := some "activity_func".toList, stringValue := some "SleepFor".toList },
                 { name := some "duration_us".toList, int64Value := some 25 }] }

example : ∃ p, parseActivityConfig sleepConfig = .ok p ∧ RunnableActivity p :=
  ⟨_, rfl, (C68_accepted_runnable_partial sleepConfig _ (fun d hd => ⟨hd, hd⟩) rfl).2⟩

/-! ### C69: payload sizes of RPCs -/

private theorem findPayload_of_mem {ps : List PayloadSpec} (hnd : (ps.map (·.name)).Nodup)
    {p : PayloadSpec} (hm : p ∈ ps) : findPayload ps p.name = some p := by
  unfold findPayload
  induction ps with
  | nil => simp at hm
  | cons q qs ih =>
    rw [List.map_cons, List.nodup_cons] at hnd
    rw [List.find?_cons]
    rcases List.mem_cons.1 hm with rfl | hm
    · simp
    · have : q.name ≠ p.name := by
        intro h
        exact hnd.1 (List.mem_map.2 ⟨p, hm, h.symm⟩)
      simp only [this, decide_false]
      exact ih hnd.2 hm

private theorem initRpcDefinitions_ok {e : Env} {cfg : Tables.Config} {svc : Str} {services : NameMap}
    {rg sg : Gens} {payloads : PayloadMap} {specs : List RpcSpec} {pos : Nat}
    {defs : List RpcDefinition}
    (h : initRpcDefinitions e cfg svc services rg sg payloads specs pos = .ok defs) :
    defs.length = specs.length ∧ ∀ (i : Nat) spec, specs[i]? = some spec → ∃ d, defs[i]? = some d ∧
      rpcDefinition e cfg svc services rg sg payloads (pos + i) spec = .ok d := by
  induction specs generalizing pos defs with
  | nil =>
    rw [initRpcDefinitions] at h
    injection h with h
    subst h
    exact ⟨rfl, by simp⟩
  | cons s specs ih =>
    simp only [initRpcDefinitions, Outcome.bind_ok] at h
    obtain ⟨d, hd, ds, hds, h⟩ := h
    injection h with h
    subst h
    obtain ⟨h1, h2⟩ := ih hds
    refine ⟨by simp [h1], ?_⟩
    intro i spec hi
    cases i with
    | zero =>
      simp only [List.getElem?_cons_zero, Option.some.injEq] at hi
      subst hi
      exact ⟨d, rfl, hd⟩
    | succ i =>
      simp only [List.getElem?_cons_succ] at hi ⊢
      obtain ⟨d', hd', he⟩ := h2 i spec hi
      refine ⟨d', hd', ?_⟩
      rw [← he]
      congr 1
      omega

theorem rpcDefinition_ok {e : Env} {cfg : Tables.Config} {svc : Str} {services : NameMap}
    {rg sg : Gens} {payloads : PayloadMap} {pos : Nat} {spec : RpcSpec} {d : RpcDefinition}
    (h : rpcDefinition e cfg svc services rg sg payloads pos spec = .ok d) :
    d.spec = spec ∧
    d.allowedFromThisClient = spec.client.any (fun c => c = svc) ∧
    (spec.distributionConfigName = none →
      d.jointSampleGeneratorIndex = -1 ∧
      (d.requestPayloadSize, d.requestPayloadIndex)
        = resolvePayload sg payloads spec.requestPayloadName 16 ∧
      (d.responsePayloadSize, d.responsePayloadIndex)
        = resolvePayload sg payloads spec.responsePayloadName 32) ∧
    (∀ n, spec.distributionConfigName = some n → d.jointSampleGeneratorIndex = rg.index n) ∧
    ∃ si sv, services.find spec.server = some si ∧ cfg.services[si.toNat]? = some sv ∧
      d.serverSpec = sv ∧
      resolveChannel (cfg.channels sv.name) pos spec.multiServerChannelName
        = .ok d.multiserverChannelIndex ∧
      Fanout.initializeRpcFanoutFilter e.atof spec.fanoutFilter = .ok d.fanout := by
  unfold rpcDefinition at h
  cases hs : services.find spec.server with
  | none => rw [hs] at h; simp at h
  | some si =>
    cases hg : cfg.services[si.toNat]? with
    | none =>
      simp only [hs, hg, Outcome.bind_ok] at h
      obtain ⟨sv, hsv, -⟩ := h
      simp at hsv
    | some sv =>
      simp only [hs, hg, Outcome.bind_ok] at h
      obtain ⟨sv', hsv, ch, hch, h⟩ := h
      injection hsv with hsv
      subst hsv
      split at h
      · simp at h
      · rw [Outcome.bind_ok] at h
        obtain ⟨fo, hfo, h⟩ := h
        injection h with h
        subst h
        refine ⟨rfl, rfl, ?_, ?_, si, sv, rfl, hg, rfl, hch, hfo⟩
        · intro hn
          simp only [hn]
          exact ⟨trivial, trivial, trivial⟩
        · intro n hn
          simp only [hn]

private theorem findRpcDefinition_at {defs : List RpcDefinition} {specs : List RpcSpec}
    (hlen : defs.length = specs.length)
    (hspec : ∀ (i : Nat) d s, defs[i]? = some d → specs[i]? = some s → d.spec = s)
    (hnd : (specs.map (·.name)).Nodup) {i : Nat} {d : RpcDefinition} {s : RpcSpec}
    (hd : defs[i]? = some d) (hs : specs[i]? = some s) : findRpcDefinition defs s.name = d := by
  unfold findRpcDefinition
  have hm : d ∈ defs.reverse := List.mem_reverse.2 (List.mem_of_getElem? hd)
  have hn : d.spec.name = s.name := by rw [hspec i d s hd hs]
  cases hf : defs.reverse.find? (fun d => decide (d.spec.name = s.name)) with
  | none =>
    rw [List.find?_eq_none] at hf
    exact absurd (by simpa using hn) (hf d hm)
  | some d' =>
    have h1 : d'.spec.name = s.name := by simpa using List.find?_some hf
    have h2 := List.mem_reverse.1 (List.mem_of_find?_eq_some hf)
    obtain ⟨k, hk, hke⟩ := List.mem_iff_getElem.1 h2
    have hk' : k < specs.length := by omega
    have h3 := hspec k d' _ (by rw [List.getElem?_eq_getElem hk, hke]) (List.getElem?_eq_getElem hk')
    have hi' : i < specs.length := by
      by_cases hlt : i < specs.length
      · exact hlt
      · rw [List.getElem?_eq_none (by omega)] at hs; simp at hs
    have e1 : (specs.map (·.name))[k]? = (specs.map (·.name))[i]? := by
      rw [List.getElem?_map, List.getElem?_map, hs, List.getElem?_eq_getElem hk']
      simp only [Option.map_some, Option.some.injEq]
      rw [← h3, h1]
    have e2 := (List.getElem?_inj (by simpa using hk') hnd).1 e1
    subst e2
    rw [List.getElem?_eq_getElem hk, hke] at hd
    exact Option.some.inj hd

/-- The definition the tables hold for the RPC at some position. -/
theorem rpcTable_definition {e : Env} {cfg : Tables.Config} {svc : Str} {t : Tables.Tables}
    (hnd : (cfg.rpcs.map (·.name)).Nodup) (h : initTables e cfg svc = .ok t) {i : Nat}
    {spec : RpcSpec} (hs : cfg.rpcs[i]? = some spec) :
    ∃ entry, t.rpcTable[i]? = some entry ∧
      rpcDefinition e cfg svc t.services t.rpcGens t.sizeGens t.payloads i spec
        = .ok entry.definition ∧
      rpcEntry cfg svc t.services (lastIndices (cfg.actionLists.map (·.name))) t.rpcDefs spec
        = .ok entry ∧
      initGens e (canonicalSize e) cfg.sizeDistributions {} = .ok t.sizeGens ∧
      initPayloads t.sizeGens cfg.payloads [] = .ok t.payloads ∧
      initGens e (canonicalSize e) cfg.rpcDistributions {} = .ok t.rpcGens ∧
      t.services = enumerateServiceTypes cfg.services := by
  simp only [initTables, Outcome.bind_ok] at h
  obtain ⟨rg, hrg, dg, hdg, sg, hsg, p, hp, d, hd, a, ha, tr, htr, l, hl, r, hr, h⟩ := h
  injection h with h
  subst h
  obtain ⟨h1, h2⟩ := initRpcDefinitions_ok hd
  obtain ⟨df, hdf, hok⟩ := h2 i spec hs
  obtain ⟨-, r2⟩ := mapIdx_ok hr
  obtain ⟨entry, he, hre⟩ := r2 i spec hs
  refine ⟨entry, he, ?_, hre, hsg, hp, hrg, rfl⟩
  have hfind : findRpcDefinition d spec.name = df := by
    refine findRpcDefinition_at h1 ?_ hnd hdf hs
    intro j dj sj hdj hsj
    obtain ⟨dj', hdj', hok'⟩ := h2 j sj hsj
    rw [hdj] at hdj'
    injection hdj' with hdj'
    subst hdj'
    exact (rpcDefinition_ok hok').1
  have : entry.definition = df := by
    simp only [rpcEntry] at hre
    repeat' split at hre
    all_goals first
      | (injection hre with hre; rw [← hre]; exact hfind)
      | simp at hre
  rw [this]
  rw [Nat.zero_add] at hok
  exact hok

/-- C69 (partial).  For every accepted configuration with distinct RPC names, an RPC without a
joint distribution uses: 16 request and 32 response bytes if it names no payload or an undefined
one; the declared size if it names a payload with a fixed size that fits an `int`; and samples of
the named size distribution if the payload has one.  Missing: fixed sizes of 2^31 and more. -/
theorem C69_sizes_partial (e : Env) (cfg : Tables.Config) (svc : Str) (t : Tables.Tables)
    (hnd : (cfg.rpcs.map (·.name)).Nodup) (h : initTables e cfg svc = .ok t) (i : Nat)
    (spec : RpcSpec) (hs : cfg.rpcs[i]? = some spec) (hj : spec.distributionConfigName = none) :
    ∃ entry, t.rpcTable[i]? = some entry ∧ entry.definition.jointSampleGeneratorIndex = -1 ∧
      (∀ n size index default_,
        (n, size, index, default_) ∈
          [(spec.requestPayloadName, entry.definition.requestPayloadSize,
              entry.definition.requestPayloadIndex, (16 : Int)),
           (spec.responsePayloadName, entry.definition.responsePayloadSize,
              entry.definition.responsePayloadIndex, 32)] →
        ((∀ p ∈ cfg.payloads, n ≠ some p.name) → size = default_ ∧ index = -1) ∧
        (∀ p ∈ cfg.payloads, n = some p.name → p.sizeDistributionName = none →
          (p.size = none → size = default_ ∧ index = -1) ∧
          ∀ v, p.size = some v → 0 ≤ v → v < 2 ^ 31 → size = v ∧ index = -1) ∧
        (∀ p ∈ cfg.payloads, n = some p.name → ∀ dn, p.sizeDistributionName = some dn →
          ∃ (k : Nat) (c : Dist.Config), index = k ∧ cfg.sizeDistributions[k]? = some c ∧
            c.name = dn ∧ ∃ cc gen, canonicalSize e c = .ok cc ∧ Dist.initGen e.rnd cc = .ok gen ∧
              t.sizeGens.gens[k]? = some gen)) := by
  obtain ⟨entry, he, hok, -, hsg, hp, -, -⟩ := rpcTable_definition hnd h hs
  obtain ⟨-, -, h3, -⟩ := rpcDefinition_ok hok
  obtain ⟨g1, g2, g3⟩ := h3 hj
  obtain ⟨p1, p2, p3⟩ := initPayloads_ok hp
  rw [List.nil_append] at p1
  have hpn := p3 (by simp)
  have p2 : ∀ q ∈ cfg.payloads, ∀ d, q.sizeDistributionName = some d → t.sizeGens.index d ≠ -1 := p2
  rw [p1] at hpn
  refine ⟨entry, he, g1, ?_⟩
  have key : ∀ (n : Option Str) (size index default_ : Int),
      (size, index) = resolvePayload t.sizeGens t.payloads n default_ →
      ((∀ p ∈ cfg.payloads, n ≠ some p.name) → size = default_ ∧ index = -1) ∧
      (∀ p ∈ cfg.payloads, n = some p.name → p.sizeDistributionName = none →
        (p.size = none → size = default_ ∧ index = -1) ∧
        ∀ v, p.size = some v → 0 ≤ v → v < 2 ^ 31 → size = v ∧ index = -1) ∧
      (∀ p ∈ cfg.payloads, n = some p.name → ∀ dn, p.sizeDistributionName = some dn →
        ∃ (k : Nat) (c : Dist.Config), index = k ∧ cfg.sizeDistributions[k]? = some c ∧
          c.name = dn ∧ ∃ cc gen, canonicalSize e c = .ok cc ∧ Dist.initGen e.rnd cc = .ok gen ∧
            t.sizeGens.gens[k]? = some gen) := by
    intro n size index default_ heq
    rw [p1] at heq
    refine ⟨?_, ?_, ?_⟩
    · intro hn
      have hz : resolvePayload t.sizeGens cfg.payloads n default_ = (default_, -1) := by
        unfold resolvePayload
        cases n with
        | none => simp
        | some m =>
          have hf : findPayload cfg.payloads m = none := by
            unfold findPayload
            rw [List.find?_eq_none]
            intro q hq
            have := hn q hq
            simp only [ne_eq, Option.some.injEq] at this
            simpa using fun h => this h.symm
          simp [getPayloadSize, getPayloadSizeIndex, hf]
      rw [hz] at heq
      exact ⟨congrArg Prod.fst heq, congrArg Prod.snd heq⟩
    · intro q hq hn hsd
      subst hn
      have hf := findPayload_of_mem hpn hq
      constructor
      · intro hsz
        have hz : resolvePayload t.sizeGens cfg.payloads (some q.name) default_ = (default_, -1) := by
          simp [resolvePayload, getPayloadSize, getPayloadSizeIndex, hf, hsd, hsz]
        rw [hz] at heq
        exact ⟨congrArg Prod.fst heq, congrArg Prod.snd heq⟩
      · intro v hsz h0 hlt
        have ht : Dist.toInt32 v = v := Dist.toInt32_of ⟨by omega, by omega⟩
        have hne : v ≠ -1 := by omega
        have hz : resolvePayload t.sizeGens cfg.payloads (some q.name) default_ = (v, -1) := by
          simp [resolvePayload, getPayloadSize, getPayloadSizeIndex, hf, hsd, hsz, ht, hne]
        rw [hz] at heq
        exact ⟨congrArg Prod.fst heq, congrArg Prod.snd heq⟩
    · intro q hq hn dn hdn
      subst hn
      have hf := findPayload_of_mem hpn hq
      have hi := p2 q hq dn hdn
      have hz : (resolvePayload t.sizeGens cfg.payloads (some q.name) default_).2
          = t.sizeGens.index dn := by
        simp [resolvePayload, getPayloadSize, getPayloadSizeIndex, hf, hdn, hi]
      have hidx : index = t.sizeGens.index dn := by
        rw [← hz, ← heq]
      obtain ⟨c, hc, hcn⟩ := ((initGens_index hsg dn).1).1 hi
      obtain ⟨k, hk, hke⟩ := List.mem_iff_getElem.1 hc
      have hg : cfg.sizeDistributions[k]? = some c := by rw [List.getElem?_eq_getElem hk, hke]
      obtain ⟨-, -, -, -, q5, -, q7⟩ := initGens_ok hsg (by intro n k h; simp [NameMap.find] at h)
      have hk5 := q5 k c hg
      obtain ⟨cc, gen, c1, c2, c3⟩ := q7 k c hg
      simp only [List.length_nil, Nat.zero_add] at hk5 c3
      refine ⟨k, c, ?_, hg, hcn, cc, gen, c1, c2, c3⟩
      rw [hidx, Gens.index, ← hcn, hk5]
      rfl
  intro n size index default_ hmem
  simp only [List.mem_cons, List.not_mem_nil, or_false, Prod.mk.injEq] at hmem
  rcases hmem with ⟨rfl, rfl, rfl, rfl⟩ | ⟨rfl, rfl, rfl, rfl⟩
  · exact key _ _ _ _ g2
  · exact key _ _ _ _ g3

/-- The full property fails: a payload of 4294967301 bytes is accepted and becomes 5 bytes. -/
theorem C69_large_size_wrapped :
    ∃ (cfg : Tables.Config) (t : Tables.Tables) (entry : RpcEntry),
      initTables sampleEnv cfg "client".toList = .ok t ∧
      cfg.rpcs.map (·.requestPayloadName) = [some "small".toList] ∧
      cfg.payloads.map (fun p => (p.name, p.size)) = [("small".toList, some 4294967301)] ∧
      t.rpcTable[0]? = some entry ∧ entry.definition.requestPayloadSize = 5 :=
  ⟨{ sampleConfig with payloads := [{ name := "small".toList, size := some 4294967301 }] },
   _, _, rfl, rfl, rfl, rfl, rfl⟩

example (t : Tables.Tables) (ht : initTables sampleEnv sampleConfig "client".toList = .ok t) :=
  C69_sizes_partial sampleEnv sampleConfig _ t (by decide) ht 0 _ rfl rfl

/-! ### C70: channels -/

/-- C70 (partial).  An RPC that names a multi-server channel uses the first channel of that name of
its server; a name the server does not have is reported as an error when the server has more
channels than the position of the RPC.  Missing: with fewer channels the error message itself reads
out of range. -/
theorem C70_channel_partial (e : Env) (cfg : Tables.Config) (svc : Str) (services : NameMap)
    (rg sg : Gens) (payloads : PayloadMap) (pos : Nat) (spec : RpcSpec) (n : Str)
    (hn : spec.multiServerChannelName = some n) :
    (∀ d, rpcDefinition e cfg svc services rg sg payloads pos spec = .ok d →
      ∃ (k : Nat), d.multiserverChannelIndex = k ∧
        (cfg.channels d.serverSpec.name)[k]? = some n ∧
        ∀ k' < k, (cfg.channels d.serverSpec.name)[k']? ≠ some n) ∧
    (∀ si sv, services.find spec.server = some si → cfg.services[si.toNat]? = some sv →
      n ∉ cfg.channels sv.name → pos < (cfg.channels sv.name).length →
      ∃ m, rpcDefinition e cfg svc services rg sg payloads pos spec = .error m) := by
  constructor
  · intro d hd
    obtain ⟨-, -, -, -, si, sv, h1, h2, h3, h4, -⟩ := rpcDefinition_ok hd
    rw [hn, resolveChannel] at h4
    cases hc : channelIndex (cfg.channels sv.name) n with
    | none =>
      rw [hc] at h4
      simp only at h4
      split at h4 <;> simp at h4
    | some k =>
      rw [hc] at h4
      injection h4 with h4
      rw [h3]
      refine ⟨k, h4.symm, ?_⟩
      unfold channelIndex at hc
      rw [List.findIdx?_eq_some_iff_getElem] at hc
      obtain ⟨hk, h5, h6⟩ := hc
      refine ⟨by rw [List.getElem?_eq_getElem hk]; simpa using h5, ?_⟩
      intro k' hk' hbad
      have := h6 k' hk'
      rw [List.getElem?_eq_getElem (by omega)] at hbad
      injection hbad with hbad
      simp [hbad] at this
  · intro si sv h1 h2 hnot hpos
    unfold rpcDefinition
    have hc : channelIndex (cfg.channels sv.name) n = none := by
      unfold channelIndex
      rw [List.findIdx?_eq_none_iff]
      intro x hx
      simp only [decide_eq_false_iff_not]
      rintro rfl
      exact hnot hx
    have hrc : resolveChannel (cfg.channels sv.name) pos spec.multiServerChannelName
        = .error "multi_server_channel not found" := by
      rw [hn, resolveChannel, hc]
      exact if_pos hpos
    simp only [h1, h2]
    refine ⟨"multi_server_channel not found", ?_⟩
    rw [Outcome.bind_ok_of rfl, hrc]
    rfl

/-- The full property fails: naming a channel of a server that has none is undefined behaviour. -/
theorem C70_unknown_channel_undefined :
    ∃ cfg : Tables.Config, cfg.rpcs.map (·.multiServerChannelName) = [some "typo".toList] ∧
      initTables sampleEnv cfg "client".toList = .ub :=
  ⟨{ sampleConfig with
     rpcs := [{ name := "query".toList, client := ["client".toList], server := "server".toList,
                multiServerChannelName := some "typo".toList }] }, rfl, rfl⟩

example := (C70_channel_partial sampleEnv
  { sampleConfig with channels := fun _ => ["a".toList, "b".toList] } "client".toList
  (enumerateServiceTypes sampleConfig.services) {} {} [] 0
  { name := "query".toList, client := ["client".toList], server := "server".toList,
    multiServerChannelName := some "b".toList } "b".toList rfl).1 _ rfl

/-! ### C71: predicate names -/

theorem forOutcome_ok {α : Type} {f : α → Outcome Unit} {l : List α} :
    forOutcome f l = .ok () ↔ ∀ a ∈ l, f a = .ok () := by
  induction l with
  | nil => simp [forOutcome]
  | cons a l ih =>
    simp only [forOutcome, Outcome.bind_ok, List.forall_mem_cons, ih]
    constructor
    · rintro ⟨⟨⟩, h1, h2⟩; exact ⟨h1, h2⟩
    · rintro ⟨h1, h2⟩; exact ⟨(), h1, h2⟩

/-- C71 (partial).  A canonical description has no predicate named "" or "!".  Missing: longer
names that start with '!' are accepted, because the arguments of the prefix test are swapped. -/
theorem C71_predicates_partial (cfg out : Tables.Config) (h : canonicalDescription cfg = .ok out)
    (l : ActionList) (hl : l ∈ out.actionLists) (p : Str × Rat)
    (hp : p ∈ l.predicateProbabilities) : p.1 ≠ [] ∧ p.1 ≠ ['!'] := by
  simp only [canonicalDescription, Outcome.bind_ok] at h
  obtain ⟨sv, hsv, ⟨⟩, htr, ⟨⟩, hit, ⟨⟩, hpr, h⟩ := h
  injection h with h
  subst h
  have := forOutcome_ok.1 (forOutcome_ok.1 hpr l hl) p hp
  constructor
  · intro e
    rw [e] at this
    simp [startsWith] at this
  · intro e
    rw [e] at this
    simp [startsWith] at this

/-- The full property fails: a predicate named "!lucky" is accepted. -/
theorem C71_bang_accepted :
    ∃ cfg out, canonicalDescription cfg = .ok out ∧
      ∃ l ∈ out.actionLists, ∃ p ∈ l.predicateProbabilities, p.1 = "!lucky".toList :=
  ⟨{ actionLists := [{ name := "l".toList, predicateProbabilities := [("!lucky".toList, 1/2)] }] },
   _, rfl, _, List.mem_cons_self, _, List.mem_cons_self, rfl⟩

example : ∃ m, canonicalDescription
    { actionLists := [{ name := "l".toList, predicateProbabilities := [("!".toList, 1/2)] }] }
    = .error m := ⟨_, rfl⟩

/-! ### C72: the RPC an action names -/

/-- C72 (partial).  With distinct RPC and service names, the index an action stores for the RPC it
names is the position of that RPC.  Missing: configurations that define an RPC name twice, which
are accepted. -/
theorem C72_rpc_by_name_partial (e : Env) (cfg : Tables.Config) (svc : Str) (t : Tables.Tables)
    (hd : DistinctNames cfg) (h : initTables e cfg svc = .ok t) (i : Nat) (l : ActionList)
    (hl : cfg.actionLists[i]? = some l) (entry : ActionListEntry)
    (he : t.actionLists[i]? = some entry) (j : Nat) (x : ActionEntry)
    (hx : entry.listActions[j]? = some x) (n : Str) (hk : x.proto.kind = .rpc n) :
    ∃ (k : Nat) (r : RpcSpec), x.rpcIndex = k ∧ cfg.rpcs[k]? = some r ∧ r.name = n := by
  obtain ⟨k, s, h1, -, r, h2, h3, -⟩ :=
    (C28_targets e cfg svc t hd h i l hl entry he j x hx).1 n hk
  exact ⟨k, r, h1, h2, h3⟩

/-- The full property fails: with the RPC name "a" defined twice, the action that names "b" is
resolved to the second "a". -/
theorem C72_duplicate_names_shift :
    ∃ (cfg : Tables.Config) (t : Tables.Tables) (entry : ActionListEntry) (x : ActionEntry),
      initTables sampleEnv cfg "client".toList = .ok t ∧ t.actionLists[0]? = some entry ∧
      entry.listActions[0]? = some x ∧ x.proto.kind = .rpc "b".toList ∧ x.rpcIndex = 1 ∧
      cfg.rpcs.map (·.name) = ["a".toList, "a".toList, "b".toList] :=
  ⟨{ services := [{ name := "client".toList, count := some 1 },
                  { name := "server".toList, count := some 2 }],
     rpcs := [{ name := "a".toList, client := ["client".toList], server := "server".toList },
              { name := "a".toList, client := ["client".toList], server := "server".toList },
              { name := "b".toList, client := ["client".toList], server := "server".toList }],
     actions := [{ name := "act".toList, kind := .rpc "b".toList }],
     actionLists := [{ name := "client".toList, actionNames := ["act".toList] },
                     { name := "a".toList }, { name := "b".toList }] },
   _, _, _, rfl, rfl, rfl, rfl, rfl, rfl⟩

/-! ### C73: sampling payload sizes -/

private theorem canonical_dims {rnd : Rat → Rat} {c cc : Dist.Config} {fields : List Str}
    (h : Dist.canonical rnd c fields = .ok cc) :
    cc.cdfPoints = [] ∧ ∀ p ∈ cc.pmfPoints, p.dataPoints.length = fields.length := by
  unfold Dist.canonical at h
  cases hv : Dist.validate rnd c with
  | error m => rw [hv] at h; simp at h
  | ub => rw [hv] at h; simp at h
  | crash => rw [hv] at h; simp at h
  | ok u =>
    simp only [hv] at h
    cases hidx : Dist.canonicalFromProto c.fieldNames fields with
    | none => rw [hidx] at h; simp at h
    | some idx =>
      simp only [hidx] at h
      cases hm : c.pmfPoints.mapM (Dist.reorderPoint idx) with
      | none => rw [hm] at h; simp at h
      | some pmf =>
        simp only [hm] at h
        have hil := (Dist.canonicalFromProto_some hidx).1
        have hpmf : ∀ p ∈ pmf, p.dataPoints.length = fields.length := by
          intro p hp
          obtain ⟨k, hk, rfl⟩ := List.mem_iff_getElem.1 hp
          obtain ⟨h1, h2⟩ := Dist.mapM_spec hm
          have := h2 k (by omega) hk
          unfold Dist.reorderPoint at this
          rw [Option.map_eq_some_iff] at this
          obtain ⟨d, hd, he⟩ := this
          rw [← he]
          simp only
          rw [(Dist.mapM_spec hd).1, hil]
        cases hcdf : c.cdfPoints with
        | nil =>
          rw [hcdf] at h
          injection h with h
          subst h
          exact ⟨rfl, hpmf⟩
        | cons p0 rest =>
          rw [hcdf] at h
          simp only at h
          split at h
          · cases hu : Dist.uniformPoints rnd fields.length rest (.num 0) p0.value with
            | none => rw [hu] at h; simp at h
            | some ps =>
              simp only [hu] at h
              injection h with h
              subst h
              refine ⟨rfl, ?_⟩
              intro p hp
              rcases List.mem_append.1 hp with hp | hp
              · exact hpmf p hp
              · have : ∀ (rest : List Dist.CdfPoint) (prev : Dist.F) (lo : Int) ps,
                    Dist.uniformPoints rnd fields.length rest prev lo = some ps →
                    ∀ p ∈ ps, p.dataPoints.length = fields.length := by
                  intro rest
                  induction rest with
                  | nil =>
                    intro prev lo ps h p hp
                    simp only [Dist.uniformPoints, Option.some.injEq] at h
                    subst h
                    simp at hp
                  | cons q rest ih =>
                    intro prev lo ps h p hp
                    rw [Dist.uniformPoints] at h
                    split at h
                    · rw [Option.map_eq_some_iff] at h
                      obtain ⟨qs, hq, rfl⟩ := h
                      rcases List.mem_cons.1 hp with rfl | hp
                      · simp
                      · exact ih _ _ _ hq p hp
                    · simp at h
                exact this _ _ _ _ hu p hp
          · injection h with h
            subst h
            refine ⟨rfl, ?_⟩
            intro p hp
            rcases List.mem_append.1 hp with hp | hp
            · exact hpmf p hp
            · have : ∀ (rest : List Dist.CdfPoint) (prev : Dist.F),
                  ∀ p ∈ Dist.exactPoints rnd fields.length rest prev,
                    p.dataPoints.length = fields.length := by
                intro rest
                induction rest with
                | nil => intro prev p hp; simp [Dist.exactPoints] at hp
                | cons q rest ih =>
                  intro prev p hp
                  rw [Dist.exactPoints] at hp
                  rcases List.mem_cons.1 hp with rfl | hp
                  · simp
                  · exact ih _ p hp
              exact this _ _ p hp

private theorem initGen_dims {rnd : Rat → Rat} {cc : Dist.Config} {g : Dist.Gen} {n : Nat}
    (hc : cc.cdfPoints = []) (hp : ∀ p ∈ cc.pmfPoints, p.dataPoints.length = n)
    (h : Dist.initGen rnd cc = .ok g) : g.cells.length = n := by
  unfold Dist.initGen at h
  cases hv : Dist.validate rnd cc with
  | error m => rw [hv] at h; simp at h
  | ub => rw [hv] at h; simp at h
  | crash => rw [hv] at h; simp at h
  | ok u =>
    simp only [hv, hc] at h
    simp only [ne_eq, not_true_eq_false, if_false] at h
    split at h
    · injection h with h
      subst h
      cases hps : cc.pmfPoints with
      | nil => rename_i hne; exact absurd hps (by simpa using hne)
      | cons p ps =>
        simp only [Dist.initWithPmf, List.length_map, List.length_range]
        exact hp p (by rw [hps]; simp)
    · simp at h

/-- C73 (partial).  In an accepted configuration, drawing a delay never aborts the process, and
neither does drawing a payload size from a one-dimensional size distribution.  Missing:
two-dimensional size distributions, which are accepted. -/
theorem C73_scalar_draws_partial (e : Env) (cfg : Tables.Config) (svc : Str) (t : Tables.Tables)
    (h : initTables e cfg svc = .ok t) :
    (∀ (i : Nat) (c : Dist.Config) (g : Dist.Gen), cfg.delayDistributions[i]? = some c →
      t.delayGens.gens[i]? = some g → ∀ o, Dist.getScalarRandomSample g o → o ≠ .crash) ∧
    (∀ (i : Nat) (c : Dist.Config) (g : Dist.Gen), cfg.sizeDistributions[i]? = some c →
      t.sizeGens.gens[i]? = some g → "response_payload_size".toList ∉ c.fieldNames →
      ∀ o, Dist.getScalarRandomSample g o → o ≠ .crash) := by
  have key : ∀ g : Dist.Gen, g.cells.length = 1 → ∀ o, Dist.getScalarRandomSample g o → o ≠ .crash := by
    intro g hg o ho hcr
    unfold Dist.getScalarRandomSample at ho
    rw [if_neg (by simpa using hg)] at ho
    obtain ⟨s, hs, hm⟩ := ho
    subst hcr
    cases s with
    | ok l => simp at hm
    | error m => simp at hm
    | ub => simp at hm
    | crash =>
      rcases hs with ⟨-, hs⟩ | ⟨-, k, q, -, -, hd⟩
      · simp at hs
      · generalize hcr : (Outcome.crash : Outcome (List Int)) = o at hd
        generalize g.cells = cells at hd
        induction hd <;> simp at hcr
  simp only [initTables, Outcome.bind_ok] at h
  obtain ⟨rg, hrg, dg, hdg, sg, hsg, p, hp, d, hd, a, ha, tr, htr, l, hl, r, hr, h⟩ := h
  injection h with h
  subst h
  constructor
  · intro i c g hc hg
    obtain ⟨-, -, -, -, -, -, q7⟩ := initGens_ok hdg (by intro n k h; simp [NameMap.find] at h)
    obtain ⟨cc, gen, c1, c2, c3⟩ := q7 i c hc
    simp only [List.length_nil, Nat.zero_add] at c3
    simp only at hg
    rw [hg] at c3
    injection c3 with c3
    subst c3
    obtain ⟨d1, d2⟩ := canonical_dims c1
    exact key g (initGen_dims d1 d2 c2)
  · intro i c g hc hg hf
    obtain ⟨-, -, -, -, -, -, q7⟩ := initGens_ok hsg (by intro n k h; simp [NameMap.find] at h)
    obtain ⟨cc, gen, c1, c2, c3⟩ := q7 i c hc
    simp only [List.length_nil, Nat.zero_add] at c3
    simp only at hg
    rw [hg] at c3
    injection c3 with c3
    subst c3
    have c1' : Dist.canonical e.rnd c fields1d = .ok cc := by
      unfold canonicalSize at c1
      cases h2 : Dist.canonical e.rnd c fields2d with
      | error m => rw [h2] at c1; exact c1
      | ub => rw [h2] at c1; simp at c1
      | crash => rw [h2] at c1; simp at c1
      | ok c2d =>
        exfalso
        unfold Dist.canonical at h2
        have hnone : Dist.canonicalFromProto c.fieldNames fields2d = none := by
          rw [Dist.canonicalFromProto_none]
          exact ⟨"response_payload_size".toList, by simp [fields2d], hf⟩
        rw [hnone] at h2
        cases hv : Dist.validate e.rnd c <;> rw [hv] at h2 <;> simp at h2
    obtain ⟨d1, d2⟩ := canonical_dims c1'
    exact key g (initGen_dims d1 d2 c2)

/-- One point: 10 bytes out, 20 bytes back. -/
def jointSizes : Dist.Config :=
  { name := "joint".toList,
    fieldNames := ["request_payload_size".toList, "response_payload_size".toList],
    pmfPoints := [⟨.num 1, [⟨some 10, none, none⟩, ⟨some 20, none, none⟩]⟩] }

/-- The full property fails: a two-dimensional size distribution is accepted and drawing a payload
size from it aborts the process. -/
theorem C73_joint_size_distribution_aborts :
    ∃ (cfg : Tables.Config) (t : Tables.Tables) (g : Dist.Gen),
      initTables sampleEnv cfg "client".toList = .ok t ∧
      t.sizeGens.gens[0]? = some g ∧ Dist.getScalarRandomSample g .crash := by
  have h : (match initTables sampleEnv { sampleConfig with sizeDistributions := [jointSizes] }
      "client".toList with
      | .ok t => t.sizeGens.gens[0]?.map (·.cells.length)
      | _ => none) = some 2 := by decide +kernel
  split at h
  · rename_i t ht
    rw [Option.map_eq_some_iff] at h
    obtain ⟨g, hg, hl⟩ := h
    refine ⟨_, t, g, ht, hg, ?_⟩
    unfold Dist.getScalarRandomSample
    rw [if_pos (by omega)]
  · simp at h

/-! ### C74: handlers, clients and servers of RPCs -/

/-- C74.  In an accepted configuration with distinct names, for the RPC at any position: this
service serves it iff it is the RPC's server; it may send it iff it is among the RPC's clients; the
handler is the action list with the RPC's name, or none if that list is empty; and the connections
this service opens are to the servers of the RPCs and traces it is a client of, and no others. -/
theorem C74_rpc_bindings (e : Env) (cfg : Tables.Config) (svc : Str) (t : Tables.Tables)
    (hd : DistinctNames cfg) (h : initTables e cfg svc = .ok t) :
    (∀ (i : Nat) rpc, cfg.rpcs[i]? = some rpc → ∃ entry, t.rpcTable[i]? = some entry ∧
      entry.definition.spec = rpc ∧
      (entry.allowed = true ↔ rpc.server = svc) ∧
      (entry.definition.allowedFromThisClient = true ↔ svc ∈ rpc.client) ∧
      (∃ s : Nat, entry.serviceIndex = s ∧ ∃ sv, cfg.services[s]? = some sv ∧ sv.name = rpc.server) ∧
      ∃ (k : Nat) (l : ActionList), cfg.actionLists[k]? = some l ∧ l.name = rpc.name ∧
        ((l.actionNames = [] ∧ entry.handlerActionlistIndex = -1) ∨
         (l.actionNames ≠ [] ∧ entry.handlerActionlistIndex = k))) ∧
    (∀ n, n ∈ t.dependentServices ↔
      (∃ rpc ∈ cfg.rpcs, svc ∈ rpc.client ∧ rpc.server = n) ∨
      ∃ tr ∈ cfg.traces, tr.client.getD [] = svc ∧ tr.server.getD [] = n) := by
  constructor
  · intro i rpc hi
    obtain ⟨entry, h1, h2, h3, -, -, -, hsv⟩ := rpcTable_definition hd.rpcs h hi
    obtain ⟨d1, d2, -⟩ := rpcDefinition_ok h2
    refine ⟨entry, h1, d1, ?_⟩
    unfold rpcEntry at h3
    split at h3
    · simp at h3
    split at h3
    · simp at h3
    split at h3
    · simp at h3
    cases hl : (lastIndices (cfg.actionLists.map (·.name))).find rpc.name with
    | none => rw [hl] at h3; simp at h3
    | some k =>
      simp only [hl] at h3
      cases hs : t.services.find rpc.server with
      | none => rw [hs] at h3; simp at h3
      | some si =>
        simp only [hs, Outcome.ok.injEq] at h3
        obtain ⟨kn, rfl, hk, -⟩ := lastIndices_some hl
        rw [List.getElem?_map, Option.map_eq_some_iff] at hk
        obtain ⟨l, hkl, hln⟩ := hk
        have hss := hs
        rw [hsv] at hs
        unfold enumerateServiceTypes at hs
        obtain ⟨m2, -, -⟩ := enumerate_some hs
        obtain ⟨s, hsl, hsn⟩ := List.mem_iff_getElem.1 m2
        have e1 := (enumerate_spec _ hd.services).2.1 s hsl
        rw [hsn, hs] at e1
        injection e1 with e1
        have hal : entry.allowed = decide (rpc.server = svc) := by rw [← h3]
        have hsi : entry.serviceIndex = si := by rw [← h3]
        refine ⟨by rw [hal]; simp, ?_, ⟨s, by rw [hsi, e1], ?_⟩, kn, l, hkl, hln, ?_⟩
        · rw [d2]
          simp
        · rw [List.length_map] at hsl
          rw [List.getElem_map] at hsn
          exact ⟨_, List.getElem?_eq_getElem hsl, hsn⟩
        · have hh : entry.handlerActionlistIndex = if l.actionNames = [] then -1 else (kn : Int) := by
            rw [← h3]
            simp only [Int.toNat_natCast, hkl]
          rw [hh]
          by_cases hempty : l.actionNames = []
          · exact .inl ⟨hempty, if_pos hempty⟩
          · exact .inr ⟨hempty, if_neg hempty⟩
  · intro n
    have ht : t.dependentServices = dependentServices cfg svc := by
      simp only [initTables, Outcome.bind_ok] at h
      obtain ⟨rg, hrg, dg, hdg, sg, hsg, p, hp, d, hd, a, ha, tr, htr, l, hl, r, hr, h⟩ := h
      injection h with h
      rw [← h]
    rw [ht, dependentServices]
    simp only [List.mem_append, List.mem_map, List.mem_filter, decide_eq_true_eq, List.any_eq_true,
      exists_eq_right, and_assoc]
    exact Or.comm

example (t : Tables.Tables) (ht : initTables sampleEnv sampleConfig "client".toList = .ok t) :=
  (C74_rpc_bindings sampleEnv sampleConfig _ t sampleConfig_distinct ht).1 0 _ rfl

/-! ### C75: whole-configuration validation -/

theorem validateServices_ok {e : Env} {cfg : Tables.Config} {ss : List ServiceSpec} :
    validateServices e cfg ss = .ok () ↔
      ∀ s ∈ ss, ∃ t, initializeConfig e cfg s.name ⟨1, 1, 1⟩ = .ok t := by
  induction ss with
  | nil => simp [validateServices]
  | cons s ss ih =>
    simp only [validateServices, Outcome.bind_ok, List.forall_mem_cons, ih]
    constructor
    · rintro ⟨t, h1, h2⟩; exact ⟨⟨t, h1⟩, h2⟩
    · rintro ⟨⟨t, h1⟩, h2⟩; exact ⟨t, h1, h2⟩

theorem find_service {ss : List ServiceSpec} (hnd : (ss.map (·.name)).Nodup)
    {s : ServiceSpec} (hs : s ∈ ss) : getServiceSpec s.name ss = .ok s := by
  have : ss.find? (fun x => x.name == s.name) = some s := by
    induction ss with
    | nil => simp at hs
    | cons q qs ih =>
      rw [List.map_cons, List.nodup_cons] at hnd
      rw [List.find?_cons]
      rcases List.mem_cons.1 hs with rfl | hs
      · simp
      · have hne : q.name ≠ s.name := fun h => hnd.1 (List.mem_map.2 ⟨s, hs, h.symm⟩)
        rw [beq_false_of_ne hne]
        exact ih hnd.2 hs
  rw [getServiceSpec, this]

/-- C75.  If whole-configuration validation accepts a configuration with distinct service names in
canonical form, the engine of every instance of every service accepts it; in particular, a
configuration whose tables are rejected for one of the services is not accepted. -/
theorem C75_validated_everywhere (e : Env) (cfg : Tables.Config)
    (hnd : (cfg.services.map (·.name)).Nodup)
    (h : validateTrafficConfig e cfg = .ok ()) (s : ServiceSpec) (hs : s ∈ cfg.services) :
    (∃ t, initTables e cfg s.name = .ok t) ∧
    ∀ raw, FieldsFit raw → getCanonicalServiceSpec raw = .ok s → ∀ g, InGrid s g →
      ∃ t, initializeConfig e cfg s.name g = .ok t := by
  obtain ⟨t, ht⟩ := validateServices_ok.1 h s hs
  have hspec := find_service hnd hs
  unfold initializeConfig at ht
  split at ht
  · simp at ht
  rename_i hne
  rw [Outcome.bind_ok_of hspec] at ht
  have hT : initTables e cfg s.name = .ok t := by
    split at ht
    · simp at ht
    · split at ht
      · simp at ht
      · exact ht
  refine ⟨⟨t, hT⟩, ?_⟩
  intro raw hfit hcan g hg
  obtain ⟨i, ⟨h0, hi, hsi⟩, hgi, -⟩ := (C06_grid_instance_bijection raw s hfit hcan).2 g hg
  unfold initializeConfig
  rw [if_neg hne, Outcome.bind_ok_of hspec, hgi]
  simp only
  have hname : ∃ nm, getInstanceName s i = some nm := by
    unfold getInstanceName
    rw [hsi]
    cases s.xSize with
    | none => exact ⟨_, rfl⟩
    | some x =>
      cases s.zSize with
      | some z => exact ⟨_, rfl⟩
      | none =>
        cases s.ySize with
        | some y => exact ⟨_, rfl⟩
        | none => exact ⟨_, rfl⟩
  obtain ⟨nm, hnm⟩ := hname
  rw [hnm]
  exact ⟨t, hT⟩

/-- The empty service name does not get an error: validating it aborts the process. -/
theorem C75_empty_name_aborts (e : Env) (cfg : Tables.Config) (s : ServiceSpec)
    (rest : List ServiceSpec) (h : cfg.services = s :: rest) (hn : s.name = []) :
    validateTrafficConfig e cfg = .crash := by
  rw [validateTrafficConfig, h, validateServices, hn]
  rfl

theorem sampleConfig_valid : validateTrafficConfig sampleEnv sampleConfig = .ok () := rfl

example := C75_validated_everywhere sampleEnv sampleConfig (by decide) sampleConfig_valid
  { name := "server".toList, count := some 2 } (by simp [sampleConfig])

/-! ### C76: canonical descriptions -/

/-- C76.  Accepting a description replaces every service by its canonical form, in order, changes
nothing else, and only happens when all open-loop interval distributions are known ones. -/
theorem C76_canonical_description (cfg out : Tables.Config) (h : canonicalDescription cfg = .ok out) :
    (∃ services, out = { cfg with services := services } ∧ services.length = cfg.services.length ∧
      ∀ (i : Nat) s, cfg.services[i]? = some s →
        ∃ c, services[i]? = some c ∧ getCanonicalServiceSpec s = .ok c) ∧
    ∀ a ∈ cfg.actions, ∀ it, a.iterations = some it →
      it.openLoopIntervalDistribution ∈ [[], "constant".toList, "exponential".toList,
        "sync_burst".toList, "sync_burst_spread".toList] := by
  simp only [canonicalDescription, Outcome.bind_ok] at h
  obtain ⟨sv, hsv, ⟨⟩, htr, ⟨⟩, hit, ⟨⟩, hpr, h⟩ := h
  injection h with h
  obtain ⟨h1, h2⟩ := mapIdx_ok hsv
  refine ⟨⟨sv, h.symm, h1, h2⟩, ?_⟩
  intro a ha it hai
  have := forOutcome_ok.1 hit a ha
  rw [hai] at this
  simp only [validateIterations] at this
  split at this
  · assumption
  · simp at this

example : ∃ m, canonicalDescription
    { actions := [{ iterations := some { openLoopIntervalDistribution := "poisson".toList } }] }
    = .error m := ⟨_, rfl⟩

example : ∃ out, canonicalDescription sampleConfig = .ok out := ⟨_, rfl⟩

/-! ### C253: the names of the fields decide what a number is used for -/

/-- The values drawn for the fields `fields`, in this order: each is admitted by what the point `p`
says for the field of that name. -/
private theorem draws_by_name {rnd : Rat → Rat} (hr : rnd 0 = 0) {c cc : Dist.Config} {fields : List Str}
    {qs : List Rat} (hq : c.pmfPoints.map (·.pmf) = qs.map Dist.F.num) (hne : c.pmfPoints ≠ [])
    (hpos : ∀ q ∈ qs, 0 ≤ q) (hd : ∀ p ∈ c.pmfPoints, p.dataPoints.length = c.fieldNames.length)
    (hb : ∀ p ∈ c.pmfPoints, ∀ d ∈ p.dataPoints, Bounds32 d)
    (hc : Dist.canonical rnd c fields = .ok cc) {g : Dist.Gen} (hg : Dist.initGen rnd cc = .ok g)
    (o : Outcome (List Int)) :
    (∀ f ∈ fields, f ∈ c.fieldNames) ∧
    (Dist.getRandomSample g o ↔ ∃ p ∈ c.pmfPoints, (∃ q : Rat, p.pmf = .num q ∧ 0 < q) ∧
      ∃ s, o = .ok s ∧ s.length = fields.length ∧
        ∀ (i : Nat) f x, fields[i]? = some f → s[i]? = some x →
          ∀ (j : Nat) d, c.fieldNames[j]? = some f → p.dataPoints[j]? = some d → Admits d x) := by
  have hv : Dist.validate rnd c = .ok () := by
    rcases C11_total rnd c with hv | ⟨m, hm⟩
    · exact hv
    · unfold Dist.canonical at hc
      rw [hm] at hc
      cases hc
  have hf : ∀ f ∈ fields, f ∈ c.fieldNames := by
    intro f hfm
    apply Classical.byContradiction
    intro hn
    obtain ⟨m, hm⟩ := C13_missing_rejected rnd c fields (Or.inr ⟨f, hfm, hn⟩)
    rw [hc] at hm
    cases hm
  refine ⟨hf, ?_⟩
  have hnd : c.fieldNames.Nodup := ((C11_pmf_accepted_iff rnd c qs hq hne).1 hv).2.1
  obtain ⟨out, h1, -, hfn, hcdf, hpm, hk⟩ := C13_reorder rnd c fields hne hv hd hf
  rw [hc] at h1
  cases h1
  have hlen : cc.pmfPoints.length = c.pmfPoints.length := by simpa using congrArg List.length hpm
  have hne' : cc.pmfPoints ≠ [] := by
    intro e
    rw [e] at hlen
    exact hne (List.eq_nil_of_length_eq_zero hlen.symm)
  have hv' : Dist.validate rnd cc = .ok () := by
    rcases C11_total rnd cc with hv | ⟨m, hm⟩
    · exact hv
    · unfold Dist.initGen at hg
      rw [hm] at hg
      cases hg
  -- a field of a point is a field of the original point
  have horig : ∀ k (h1 : k < c.pmfPoints.length) (h2 : k < cc.pmfPoints.length) (i : Nat) (f : Str),
      fields[i]? = some f → ∃ (j : Nat) (d : Dist.DataPoint), c.fieldNames[j]? = some f ∧ c.pmfPoints[k].dataPoints[j]? = some d ∧
        cc.pmfPoints[k].dataPoints[i]? = some d := by
    intro k h1 h2 i f hi
    obtain ⟨j, hj⟩ := List.getElem?_of_mem (hf f (List.mem_of_getElem? hi))
    have hjl : j < c.pmfPoints[k].dataPoints.length := by
      rw [hd _ (List.getElem_mem h1)]
      exact (List.getElem?_eq_some_iff.1 hj).1
    refine ⟨j, c.pmfPoints[k].dataPoints[j], hj, List.getElem?_eq_getElem hjl, ?_⟩
    rw [(hk k h1 h2).2 i j f hi hj, List.getElem?_eq_getElem hjl]
  have hb' : ∀ p ∈ cc.pmfPoints, ∀ d ∈ p.dataPoints, Bounds32 d := by
    intro p hp d hdm
    obtain ⟨k, hkl, rfl⟩ := List.mem_iff_getElem.1 hp
    obtain ⟨i, hi⟩ := List.getElem?_of_mem hdm
    have hil : i < fields.length := by
      rw [← (hk k (by omega) hkl).1]
      exact (List.getElem?_eq_some_iff.1 hi).1
    obtain ⟨j, d', -, h2, h3⟩ := horig k (by omega) hkl i _ (List.getElem?_eq_getElem hil)
    rw [hi] at h3
    cases h3
    exact hb _ (List.getElem_mem _) d (List.mem_of_getElem? h2)
  obtain ⟨g', hg', hs⟩ := C14_pmf_support rnd hr cc qs (hpm.trans hq) hne' hpos hv' hb'
  rw [hg] at hg'
  cases hg'
  have hpmf : ∀ k (h1 : k < c.pmfPoints.length) (h2 : k < cc.pmfPoints.length),
      cc.pmfPoints[k].pmf = c.pmfPoints[k].pmf := by
    intro k h1 h2
    have := congrArg (·[k]?) hpm
    simpa [List.getElem?_eq_getElem h1, List.getElem?_eq_getElem h2] using this
  rw [hs]
  constructor
  · rintro ⟨p, hp, hpp, s, ho, hsl, hadm⟩
    obtain ⟨k, hkl, rfl⟩ := List.mem_iff_getElem.1 hp
    have hkc : k < c.pmfPoints.length := by omega
    refine ⟨c.pmfPoints[k], List.getElem_mem _, ?_, s, ho, hsl.trans (hk k hkc hkl).1, ?_⟩
    · rw [← hpmf k hkc hkl]; exact hpp
    · intro i f x hi hx j d hj hdj
      have h1 := (hk k hkc hkl).2 i j f hi hj
      rw [hdj] at h1
      obtain ⟨h2, h3⟩ := List.getElem?_eq_some_iff.1 h1
      obtain ⟨h4, h5⟩ := List.getElem?_eq_some_iff.1 hx
      have := hadm i h2 h4
      rw [h3, h5] at this
      exact this
  · rintro ⟨p, hp, hpp, s, ho, hsl, hadm⟩
    obtain ⟨k, hkc, rfl⟩ := List.mem_iff_getElem.1 hp
    have hkl : k < cc.pmfPoints.length := by omega
    refine ⟨cc.pmfPoints[k], List.getElem_mem _, ?_, s, ho, hsl.trans (hk k hkc hkl).1.symm, ?_⟩
    · rw [hpmf k hkc hkl]; exact hpp
    · intro i hi hi'
      have hil : i < fields.length := by omega
      obtain ⟨j, d, h1, h2, h3⟩ := horig k hkc hkl i _ (List.getElem?_eq_getElem hil)
      have := hadm i _ _ (List.getElem?_eq_getElem hil) (List.getElem?_eq_getElem hi') j d h1 h2
      obtain ⟨h4, h5⟩ := List.getElem?_eq_some_iff.1 h3
      rw [h5]
      exact this

/-- The point `p` of the distribution `c` admits the value `x` for the field of this name. -/
def AdmitsFor (c : Dist.Config) (p : Dist.PmfPoint) (name : String) (x : Int) : Prop :=
  ∃ (j : Nat) (d : Dist.DataPoint), c.fieldNames[j]? = some name.toList ∧ p.dataPoints[j]? = some d ∧
    Admits d x

/-- A distribution given by its probabilities that the engine can draw from: the probabilities are
numbers and not negative, every point says something for every field, and intervals have bounds in
order that fit 32 bits. -/
structure Drawable (c : Dist.Config) : Prop where
  some : c.pmfPoints ≠ []
  weights : ∀ p ∈ c.pmfPoints, ∃ q : Rat, p.pmf = .num q ∧ 0 ≤ q
  fields : ∀ p ∈ c.pmfPoints, p.dataPoints.length = c.fieldNames.length
  bounds : ∀ p ∈ c.pmfPoints, ∀ d ∈ p.dataPoints, Bounds32 d

private theorem drawable_weights {c : Dist.Config} (h : ∀ p ∈ c.pmfPoints, ∃ q : Rat, p.pmf = .num q ∧ 0 ≤ q) :
    ∃ qs : List Rat, c.pmfPoints.map (·.pmf) = qs.map Dist.F.num ∧ ∀ q ∈ qs, 0 ≤ q := by
  generalize c.pmfPoints = l at h
  induction l with
  | nil => exact ⟨[], rfl, by simp⟩
  | cons p l ih =>
    obtain ⟨qs, h1, h2⟩ := ih fun p hp => h p (List.mem_cons_of_mem _ hp)
    obtain ⟨q, h3, h4⟩ := h p (List.mem_cons_self ..)
    exact ⟨q :: qs, by simp [h1, h3], by simpa using ⟨h4, h2⟩⟩

private theorem admitsFor_of {c : Dist.Config} {p : Dist.PmfPoint} {name : String} {x : Int}
    (hm : name.toList ∈ c.fieldNames) (hl : p.dataPoints.length = c.fieldNames.length)
    (h : ∀ (j : Nat) d, c.fieldNames[j]? = some name.toList → p.dataPoints[j]? = some d → Admits d x) :
    AdmitsFor c p name x := by
  obtain ⟨j, hj⟩ := List.getElem?_of_mem hm
  have hjl : j < p.dataPoints.length := by rw [hl]; exact (List.getElem?_eq_some_iff.1 hj).1
  exact ⟨j, _, hj, List.getElem?_eq_getElem hjl, h j _ hj (List.getElem?_eq_getElem hjl)⟩

private theorem admits_of_for {c : Dist.Config} {p : Dist.PmfPoint} {name : String} {x : Int}
    (hnd : c.fieldNames.Nodup) (h : AdmitsFor c p name x) (j : Nat) (d : Dist.DataPoint)
    (hj : c.fieldNames[j]? = some name.toList) (hd : p.dataPoints[j]? = some d) : Admits d x := by
  obtain ⟨i, d', hi, hd', ha⟩ := h
  obtain ⟨h1, h2⟩ := List.getElem?_eq_some_iff.1 hi
  obtain ⟨h3, h4⟩ := List.getElem?_eq_some_iff.1 hj
  have : i = j := (List.getElem_inj hnd).1 (h2.trans h4.symm)
  subst this
  rw [hd] at hd'
  cases hd'
  exact ha

private theorem canonical_nodup {rnd : Rat → Rat} {c cc : Dist.Config} {fields : List Str} (hw : Drawable c)
    (hc : Dist.canonical rnd c fields = .ok cc) : c.fieldNames.Nodup := by
  obtain ⟨qs, hq, hpos⟩ := drawable_weights hw.weights
  have hv : Dist.validate rnd c = .ok () := by
    rcases C11_total rnd c with hv | ⟨m, hm⟩
    · exact hv
    · unfold Dist.canonical at hc
      rw [hm] at hc
      cases hc
  exact ((C11_pmf_accepted_iff rnd c qs hq hw.some).1 hv).2.1

/-- One field. -/
private theorem draw_one {rnd : Rat → Rat} (hr : rnd 0 = 0) {c cc : Dist.Config} {name : String}
    (hw : Drawable c) (hc : Dist.canonical rnd c [name.toList] = .ok cc) {g : Dist.Gen}
    (hg : Dist.initGen rnd cc = .ok g) (o : Outcome (List Int)) :
    Dist.getRandomSample g o ↔ ∃ p ∈ c.pmfPoints, (∃ q : Rat, p.pmf = .num q ∧ 0 < q) ∧
      ∃ x, o = .ok [x] ∧ AdmitsFor c p name x := by
  obtain ⟨qs, hq, hpos⟩ := drawable_weights hw.weights
  have hnd := canonical_nodup hw hc
  obtain ⟨hm, h⟩ := draws_by_name hr hq hw.some hpos hw.fields hw.bounds hc hg o
  rw [h]
  constructor
  · rintro ⟨p, hp, hpp, s, ho, hsl, hs⟩
    match s, hsl with
    | [x], _ =>
      refine ⟨p, hp, hpp, x, ho, admitsFor_of (hm _ (by simp)) (hw.fields p hp) ?_⟩
      exact fun j d => hs 0 _ x rfl rfl j d
  · rintro ⟨p, hp, hpp, x, ho, hx⟩
    refine ⟨p, hp, hpp, [x], ho, rfl, ?_⟩
    intro i f y hi hy
    match i, hi, hy with
    | 0, hi, hy =>
      cases hi; cases hy
      exact admits_of_for hnd hx

/-- C253.  A distribution of sizes for RPCs that has a field `request_payload_size` and a field
`response_payload_size` is drawn from in pairs: the first number of a pair, which is the size of the
request, is one that some point admits for `request_payload_size`, and the second, which is the size
of the response, one that the same point admits for `response_payload_size`.  This is so in whatever
order the distribution lists its fields, and all such pairs can be drawn. -/
theorem C253_joint_sizes (e : Env) (hr : e.rnd 0 = 0) (cfg : Tables.Config) (svc : Str) (t : Tables.Tables)
    (h : initTables e cfg svc = .ok t) (k : Nat) (c : Dist.Config) (hk : cfg.rpcDistributions[k]? = some c)
    (hw : Drawable c) (h1 : "request_payload_size".toList ∈ c.fieldNames)
    (h2 : "response_payload_size".toList ∈ c.fieldNames) :
    ∃ g, t.rpcGens.gens[k]? = some g ∧ ∀ o, Dist.getRandomSample g o ↔
      ∃ p ∈ c.pmfPoints, (∃ q : Rat, p.pmf = .num q ∧ 0 < q) ∧
        ∃ x y, o = .ok [x, y] ∧ AdmitsFor c p "request_payload_size" x ∧
          AdmitsFor c p "response_payload_size" y := by
  simp only [initTables, Outcome.bind_ok] at h
  obtain ⟨rg, hrg, dg, hdg, sg, hsg, p, hp, d, hd, a, ha, tr, htr, l, hl, r, hr', h⟩ := h
  injection h with h
  subst h
  obtain ⟨-, -, -, -, -, -, q7⟩ := initGens_ok hrg (by intro n k h; simp [NameMap.find] at h)
  obtain ⟨cc, gen, c1, c2, c3⟩ := q7 k c hk
  simp only [List.length_nil, Nat.zero_add] at c3
  refine ⟨gen, c3, ?_⟩
  intro o
  obtain ⟨qs, hq, hpos⟩ := drawable_weights hw.weights
  have hc : Dist.canonical e.rnd c fields2d = .ok cc := by
    unfold canonicalSize at c1
    cases h3 : Dist.canonical e.rnd c fields2d with
    | error m =>
      rw [h3] at c1
      rcases C11_total e.rnd c with hv | ⟨m', hm⟩
      · obtain ⟨out, h4, -⟩ := C13_reorder e.rnd c fields2d hw.some hv hw.fields (by
          intro f hf
          simp only [fields2d, List.mem_cons, List.not_mem_nil, or_false] at hf
          rcases hf with rfl | rfl
          · exact h1
          · exact h2)
        rw [h3] at h4
        cases h4
      · exfalso
        dsimp only at c1
        unfold Dist.canonical at c1
        rw [hm] at c1
        cases c1
    | ub => rw [h3] at c1; cases c1
    | crash => rw [h3] at c1; cases c1
    | ok c2d => rw [h3] at c1; exact c1
  have hnd := canonical_nodup hw hc
  obtain ⟨-, h⟩ := draws_by_name hr hq hw.some hpos hw.fields hw.bounds hc c2 o
  rw [h]
  constructor
  · rintro ⟨p, hp, hpp, s, ho, hsl, hs⟩
    match s, hsl with
    | [x, y], _ =>
      refine ⟨p, hp, hpp, x, y, ho, admitsFor_of h1 (hw.fields p hp) ?_, admitsFor_of h2 (hw.fields p hp) ?_⟩
      · exact fun j d => hs 0 _ x rfl rfl j d
      · exact fun j d => hs 1 _ y rfl rfl j d
  · rintro ⟨p, hp, hpp, x, y, ho, hx, hy⟩
    refine ⟨p, hp, hpp, [x, y], ho, rfl, ?_⟩
    intro i f z hi hz
    match i, hi, hz with
    | 0, hi, hz =>
      cases hi; cases hz
      exact admits_of_for hnd hx
    | 1, hi, hz =>
      cases hi; cases hz
      exact admits_of_for hnd hy

/-- C253.  A distribution of sizes for payloads that has no field `response_payload_size` is drawn from
by its field `payload_size`. -/
theorem C253_single_sizes (e : Env) (hr : e.rnd 0 = 0) (cfg : Tables.Config) (svc : Str) (t : Tables.Tables)
    (h : initTables e cfg svc = .ok t) (k : Nat) (c : Dist.Config) (hk : cfg.sizeDistributions[k]? = some c)
    (hw : Drawable c) (hn : "response_payload_size".toList ∉ c.fieldNames) :
    ∃ g, t.sizeGens.gens[k]? = some g ∧ ∀ o, Dist.getRandomSample g o ↔
      ∃ p ∈ c.pmfPoints, (∃ q : Rat, p.pmf = .num q ∧ 0 < q) ∧
        ∃ x, o = .ok [x] ∧ AdmitsFor c p "payload_size" x := by
  simp only [initTables, Outcome.bind_ok] at h
  obtain ⟨rg, hrg, dg, hdg, sg, hsg, p, hp, d, hd, a, ha, tr, htr, l, hl, r, hr', h⟩ := h
  injection h with h
  subst h
  obtain ⟨-, -, -, -, -, -, q7⟩ := initGens_ok hsg (by intro n k h; simp [NameMap.find] at h)
  obtain ⟨cc, gen, c1, c2, c3⟩ := q7 k c hk
  simp only [List.length_nil, Nat.zero_add] at c3
  refine ⟨gen, c3, ?_⟩
  obtain ⟨m, hm⟩ := C13_missing_rejected e.rnd c fields2d
    (Or.inr ⟨"response_payload_size".toList, by simp [fields2d], hn⟩)
  have hc : Dist.canonical e.rnd c ["payload_size".toList] = .ok cc := by
    unfold canonicalSize at c1
    rw [hm] at c1
    exact c1
  exact draw_one hr hw hc c2

/-- C253.  A distribution of delays is drawn from by its field `action_delay_ns`. -/
theorem C253_delays (e : Env) (hr : e.rnd 0 = 0) (cfg : Tables.Config) (svc : Str) (t : Tables.Tables)
    (h : initTables e cfg svc = .ok t) (k : Nat) (c : Dist.Config) (hk : cfg.delayDistributions[k]? = some c)
    (hw : Drawable c) :
    ∃ g, t.delayGens.gens[k]? = some g ∧ ∀ o, Dist.getRandomSample g o ↔
      ∃ p ∈ c.pmfPoints, (∃ q : Rat, p.pmf = .num q ∧ 0 < q) ∧
        ∃ x, o = .ok [x] ∧ AdmitsFor c p "action_delay_ns" x := by
  simp only [initTables, Outcome.bind_ok] at h
  obtain ⟨rg, hrg, dg, hdg, sg, hsg, p, hp, d, hd, a, ha, tr, htr, l, hl, r, hr', h⟩ := h
  injection h with h
  subst h
  obtain ⟨-, -, -, -, -, -, q7⟩ := initGens_ok hdg (by intro n k h; simp [NameMap.find] at h)
  obtain ⟨cc, gen, c1, c2, c3⟩ := q7 k c hk
  simp only [List.length_nil, Nat.zero_add] at c3
  exact ⟨gen, c3, draw_one hr hw c1 c2⟩

/-- The fields in the other order: requests of 10 bytes with responses of 20 bytes, or of 100 with
responses of 200 to 300. -/
def swappedSizes : Dist.Config :=
  { name := "joint".toList,
    fieldNames := ["response_payload_size".toList, "request_payload_size".toList],
    pmfPoints := [⟨.num (1/2), [⟨some 20, none, none⟩, ⟨some 10, none, none⟩]⟩,
                  ⟨.num (1/2), [⟨none, some 200, some 300⟩, ⟨some 100, none, none⟩]⟩] }

/-- A delay of a thousand nanoseconds. -/
def fixedDelay : Dist.Config :=
  { name := "wait".toList, fieldNames := ["action_delay_ns".toList],
    pmfPoints := [⟨.num 1, [⟨some 1000, none, none⟩]⟩] }

/-- Sizes of 7 bytes. -/
def fixedSizes : Dist.Config :=
  { name := "seven".toList, fieldNames := ["payload_size".toList],
    pmfPoints := [⟨.num 1, [⟨some 7, none, none⟩]⟩] }

def drawnConfig : Tables.Config :=
  { sampleConfig with rpcDistributions := [swappedSizes], delayDistributions := [fixedDelay],
                      sizeDistributions := [fixedSizes] }

theorem drawnConfig_accepted : ∃ t, initTables sampleEnv drawnConfig "client".toList = .ok t := by
  have h : (match initTables sampleEnv drawnConfig "client".toList with
      | .ok _ => true
      | _ => false) = true := by decide +kernel
  split at h
  · exact ⟨_, by assumption⟩
  · cases h

theorem swappedSizes_drawable : Drawable swappedSizes where
  some := by simp [swappedSizes]
  weights := by
    intro p hp
    simp only [swappedSizes, List.mem_cons, List.not_mem_nil, or_false] at hp
    rcases hp with rfl | rfl <;> exact ⟨1/2, rfl, by decide +kernel⟩
  fields := by
    intro p hp
    simp only [swappedSizes, List.mem_cons, List.not_mem_nil, or_false] at hp
    rcases hp with rfl | rfl <;> rfl
  bounds := by
    intro p hp d hd
    simp only [swappedSizes, List.mem_cons, List.not_mem_nil, or_false] at hp
    rcases hp with rfl | rfl <;> simp only [List.mem_cons, List.not_mem_nil, or_false] at hd <;>
      rcases hd with rfl | rfl <;> intro hn <;> first | (injection hn; done) | (simp [InI32]; done)

-- a request of 100 bytes with a response of 250 can be drawn, the opposite cannot
example : ∃ t g, initTables sampleEnv drawnConfig "client".toList = .ok t ∧ t.rpcGens.gens[0]? = some g ∧
    Dist.getRandomSample g (.ok [100, 250]) ∧ ¬ Dist.getRandomSample g (.ok [20, 10]) := by
  obtain ⟨t, ht⟩ := drawnConfig_accepted
  obtain ⟨g, hg, hs⟩ := C253_joint_sizes sampleEnv rfl drawnConfig _ t ht 0 swappedSizes rfl
    swappedSizes_drawable (by decide +kernel) (by decide +kernel)
  refine ⟨t, g, ht, hg, ?_, ?_⟩
  · rw [hs]
    refine ⟨_, List.mem_cons_of_mem _ (List.mem_cons_self ..), ⟨1/2, rfl, by decide +kernel⟩, 100, 250, rfl,
      ⟨1, _, rfl, rfl, rfl⟩, ⟨0, _, rfl, rfl, ?_⟩⟩
    constructor <;> decide
  · rw [hs]
    rintro ⟨p, hp, -, x, y, ho, ⟨j, d, hj, hd, ha⟩, -⟩
    cases ho
    simp only [swappedSizes, List.mem_cons, List.not_mem_nil, or_false] at hp
    have hj1 : j = 1 := by
      match j, hj with
      | 0, hj => revert hj; decide +kernel
      | 1, _ => rfl
    subst hj1
    rcases hp with rfl | rfl <;> cases hd <;> cases ha

example : ∃ t g, initTables sampleEnv drawnConfig "client".toList = .ok t ∧ t.delayGens.gens[0]? = some g ∧
    Dist.getRandomSample g (.ok [1000]) := by
  obtain ⟨t, ht⟩ := drawnConfig_accepted
  obtain ⟨g, hg, hs⟩ := C253_delays sampleEnv rfl drawnConfig _ t ht 0 fixedDelay rfl
    ⟨by simp [fixedDelay], by
      intro p hp
      simp only [fixedDelay, List.mem_cons, List.not_mem_nil, or_false] at hp
      subst hp; exact ⟨1, rfl, by decide +kernel⟩,
      by intro p hp; simp only [fixedDelay, List.mem_cons, List.not_mem_nil, or_false] at hp; subst hp; rfl,
      by
        intro p hp d hd
        simp only [fixedDelay, List.mem_cons, List.not_mem_nil, or_false] at hp
        subst hp
        simp only [List.mem_cons, List.not_mem_nil, or_false] at hd
        subst hd
        intro hn; cases hn⟩
  exact ⟨t, g, ht, hg, (hs _).2 ⟨_, List.mem_cons_self .., ⟨1, rfl, by decide +kernel⟩, 1000, rfl,
    0, _, rfl, rfl, rfl⟩⟩

example : ∃ t g, initTables sampleEnv drawnConfig "client".toList = .ok t ∧ t.sizeGens.gens[0]? = some g ∧
    Dist.getRandomSample g (.ok [7]) := by
  obtain ⟨t, ht⟩ := drawnConfig_accepted
  obtain ⟨g, hg, hs⟩ := C253_single_sizes sampleEnv rfl drawnConfig _ t ht 0 fixedSizes rfl
    ⟨by simp [fixedSizes], by
      intro p hp
      simp only [fixedSizes, List.mem_cons, List.not_mem_nil, or_false] at hp
      subst hp; exact ⟨1, rfl, by decide +kernel⟩,
      by intro p hp; simp only [fixedSizes, List.mem_cons, List.not_mem_nil, or_false] at hp; subst hp; rfl,
      by
        intro p hp d hd
        simp only [fixedSizes, List.mem_cons, List.not_mem_nil, or_false] at hp
        subst hp
        simp only [List.mem_cons, List.not_mem_nil, or_false] at hd
        subst hd
        intro hn; cases hn⟩ (by decide +kernel)
  exact ⟨t, g, ht, hg, (hs _).2 ⟨_, List.mem_cons_self .., ⟨1, rfl, by decide +kernel⟩, 7, rfl,
    0, _, rfl, rfl, rfl⟩⟩

end Distbench
