import Verif.Lemmas.BuilderCheck
import Verif.Props.BuilderLoad
import Verif.Props.Timeout

/-! Property theorems C278-C280: defaults, ranges and timeouts of the tests of the test builder. -/

namespace Distbench.Builder
open Services Tables Spec

theorem built_one {f : Flags} {base : Params} {c : Str} {t : Test} (h : buildConfigs f base [c] [] = .ok [t]) :
    ∃ p, finish p = .ok t.params := by
  simp only [buildConfigs, Outcome.bind_ok] at h
  obtain ⟨p, -, ts, h2, h3⟩ := h
  injection h3 with h3
  subst h3
  simp only [addTest, Outcome.bind_ok] at h2
  obtain ⟨q, hq, name, -, h2⟩ := h2
  injection h2 with h2
  rw [List.nil_append, List.cons.injEq] at h2
  obtain ⟨rfl, -⟩ := h2
  exact ⟨_, hq⟩

/-- Every test was set up. -/
theorem build_finish {f : Flags} {r : Request} {ts : List Test} (h : build f r = .ok ts) {t : Test} (ht : t ∈ ts) :
    ∃ p, finish p = .ok t.params := by
  obtain ⟨k, hk, rfl⟩ := List.getElem_of_mem ht
  rcases build_ok h with ⟨cs, -, h⟩ | ⟨name, _, _, _, cs, values, -, -, h⟩
  · obtain ⟨more, hm, hl, hall, -⟩ := buildConfigs_ok h
    rw [List.nil_append] at hm
    subst hm
    obtain ⟨t, h1, h2⟩ := hall k (cs[k]'(hl ▸ hk)) (List.getElem?_eq_getElem _)
    rw [List.getElem?_eq_getElem hk] at h1
    cases h1
    exact built_one h2
  · obtain ⟨more, hm, hl, hall, -⟩ := sweepLoop_ok (base_nodup f) h
    rw [List.nil_append] at hm
    subst hm
    have hcs : 0 < cs.length := by
      rcases Nat.eq_zero_or_pos cs.length with h0 | h0
      · rw [h0, Nat.mul_zero] at hl; omega
      · exact h0
    have hi : k / cs.length < values.length := by
      rw [Nat.div_lt_iff_lt_mul hcs, ← hl]; exact hk
    have hj : k % cs.length < cs.length := Nat.mod_lt _ hcs
    obtain ⟨t, h1, h2⟩ := hall (k / cs.length) (k % cs.length) _ _ (List.getElem?_eq_getElem hi)
      (List.getElem?_eq_getElem hj)
    rw [Nat.div_add_mod', List.getElem?_eq_getElem hk] at h1
    cases h1
    exact built_one h2

/-! ### C278: attributes for all parameters -/

/-- C278, what holds: a test of a configuration has an attribute for every parameter of its pattern and of its
driver that has a default; it is the value that was given last, or the documented default. -/
theorem C278_defaults_partial {f : Flags} {c : Str} {t : Test} {parts : List Str} {l : List (Str × Str)}
    (h : build f (.configs [c]) = .ok [t]) (hs : fullConfig f c = separated ':' parts)
    (hne : parts ≠ []) (hno : ∀ part ∈ parts, ':' ∉ part) (hm : PartsMean f.files parts l)
    {pattern driver : Str} (hp : t.params.find "traffic_pattern".toList = some pattern)
    (hd : t.params.find "protocol_driver".toList = some driver) :
    ∀ x ∈ documentedDefaults pattern (givenLast l "exact_size".toList).isSome ++ driverDefaults driver,
      x.2 ≠ "" → t.params.find x.1.toList = some ((givenLast l x.1.toList).getD x.2.toList) := by
  rcases build_ok h with ⟨cs, he, h⟩ | ⟨_, _, _, _, _, _, he, -⟩
  · cases he
    simp only [buildConfigs, Outcome.bind_ok] at h
    obtain ⟨p, h1, ts, h2, h3⟩ := h
    injection h3 with h3
    subst h3
    unfold parseConfig at h1
    rw [fullConfig_eq, hs, split_separated hne hno, parseParts_means hm] at h1
    injection h1 with h1
    subst h1
    simp only [addTest, Outcome.bind_ok] at h2
    obtain ⟨q, hq, name, hname, h2⟩ := h2
    injection h2 with h2
    rw [List.nil_append, List.cons.injEq] at h2
    obtain ⟨rfl, -⟩ := h2
    dsimp only at hp hd ⊢
    obtain ⟨-, hdriver, pattern', hp1, hp2⟩ := finish_ok hq
    rw [hp] at hp2
    cases hp2
    rw [hdriver] at hd
    cases hd
    obtain ⟨pattern'', exact, hp3, hexact, hall⟩ := finish_values hq
    rw [hp1] at hp3
    cases hp3
    have hset : ∀ key, "config_label".toList ≠ key → "test_duration".toList ≠ key →
        (((baseParams f).setAll l).set "config_label".toList (f.labelPrefix ++ c)).find key = givenLast l key := by
      intro key hne hne'
      rw [find_set, if_neg hne, find_setAll, givenLast_eq, baseParams, Params.find, if_neg hne', Params.find,
        Option.or_none]
    have hkeys : ∀ k ∈ patternKeys ++ driverKeys, "config_label".toList ≠ k.toList ∧
        "test_duration".toList ≠ k.toList := by decide
    intro x hx hv
    have hx' : x ∈ documentedDefaults pattern exact ++ driverDefaults
        (protocolUsed (((baseParams f).setAll l).set "config_label".toList (f.labelPrefix ++ c))) := by
      rcases List.mem_append.1 hx with hx | hx
      · refine List.mem_append_left _ ?_
        cases exact with
        | true =>
          obtain ⟨a, as, he⟩ := hexact rfl
          rw [hset _ (by decide) (by decide)] at he
          rw [he] at hx
          exact hx
        | false => exact defaults_fewer x hx
      · exact List.mem_append_right _ hx
    have hk : x.1 ∈ patternKeys ++ driverKeys := by
      rcases List.mem_append.1 hx' with hx | hx
      · exact List.mem_append_left _ ((pattern_facts _ _).1 x hx)
      · exact List.mem_append_right _ ((driver_facts _).1 x hx)
    rw [hall x hx' hv, hset _ (hkeys _ hk).1 (hkeys _ hk).2]
  · cases he

/-- C278, for every test of a sequence, of configurations or of a sweep: the attributes are there. -/
theorem C278_present_partial {f : Flags} {r : Request} {ts : List Test} (h : build f r = .ok ts) {t : Test}
    (ht : t ∈ ts) {pattern driver : Str} (hp : t.params.find "traffic_pattern".toList = some pattern)
    (hd : t.params.find "protocol_driver".toList = some driver) :
    ∀ x ∈ documentedDefaults pattern (t.params.find "exact_size".toList).isSome ++ driverDefaults driver,
      x.2 ≠ "" → ∃ v, t.params.find x.1.toList = some v := by
  obtain ⟨p, hq⟩ := build_finish h ht
  obtain ⟨hkeep, hdriver, pattern', hp1, hp2⟩ := finish_ok hq
  rw [hp] at hp2
  cases hp2
  rw [hdriver] at hd
  cases hd
  obtain ⟨pattern'', exact, hp3, hexact, hall⟩ := finish_values hq
  rw [hp1] at hp3
  cases hp3
  intro x hx hv
  have hx' : x ∈ documentedDefaults pattern exact ++ driverDefaults (protocolUsed p) := by
    rcases List.mem_append.1 hx with hx | hx
    · refine List.mem_append_left _ ?_
      cases exact with
      | true =>
        obtain ⟨a, as, he⟩ := hexact rfl
        rw [hkeep _ (by decide) _ he] at hx
        exact hx
      | false => exact defaults_fewer x hx
    · exact List.mem_append_right _ hx
  exact ⟨_, hall x hx' hv⟩

example : (match build {} (.configs ["clique:homa:node_count=4".toList]) with
    | .ok [t] => (documentedDefaults "clique".toList false ++ driverDefaults "homa".toList).all fun x =>
        x.2 == "" || t.params.find x.1.toList ==
          some (if x.1 = "node_count" then "4".toList else x.2.toList)
    | _ => false) = true := by decide +kernel

example : (match build {} (.sweep "qps".toList 100 50 200 ["multi_level_rpc:mercury".toList]) with
    | .ok ts => ts.length == 3 && ts.all fun t => (documentedDefaults "multi_level_rpc".toList false ++
        driverDefaults "mercury".toList).all fun x => x.2 == "" || (t.params.find x.1.toList).isSome
    | _ => false) = true := by decide +kernel

/-- C278 is false of the parameters that are empty by default: a test has no attribute for its type of thread
pool, nor, with gRPC, for its transport. -/
theorem C278_attributes_negation : ∃ t, build {} (.configs ["clique".toList]) = .ok [t] ∧
    t.params.find "protocol_driver".toList = some "grpc".toList ∧
    ("threadpool_type", "") ∈ driverDefaults "grpc".toList ∧
    ("transport", "") ∈ driverDefaults "grpc".toList ∧
    t.params.find "threadpool_type".toList = none ∧ t.params.find "transport".toList = none := by
  have h : (match build {} (.configs ["clique".toList]) with
      | .ok [t] => t.params.find "protocol_driver".toList == some "grpc".toList &&
          t.params.find "threadpool_type".toList == none && t.params.find "transport".toList == none
      | _ => false) = true := by decide +kernel
  split at h
  · next t hb =>
    simp only [Bool.and_eq_true, beq_iff_eq] at h
    exact ⟨t, hb, h.1.1, by decide, by decide, h.1.2, h.2⟩
  · cases h

/-! ### C279: values out of range are refused -/

theorem validate_digits {m n : Nat} (hm : m < 2 ^ 63) (h : validateInteger m (digits n) = .ok ()) : m ≤ n := by
  rcases Nat.lt_or_ge n (2 ^ 63) with hn | hn
  · unfold validateInteger at h
    split at h
    · rw [arith_digits hn] at h
      dsimp only at h
      split at h
      · cases h
      · omega
    · cases h
  · omega

theorem validate_row {m : Int} {v : Str} (h : validateInteger m v = .ok ()) :
    v ≠ [] ∧ ∀ c ∈ v, '0' ≤ c ∧ c ≤ '9' := by
  unfold validateInteger at h
  split at h
  · next hd => simpa [allDigits] using hd
  · cases h

theorem smallest_small (pattern : Str) : ∀ x ∈ smallest pattern, x.2 < 2 ^ 63 := by
  unfold smallest
  repeat' split
  all_goals decide

/-- C279, what holds: the numbers of a test are rows of decimal digits, and not below the smallest values that
make sense; this holds of the parameters of the pattern, of the threads of Homa, and of the number of cells. -/
theorem C279_ranges_partial {f : Flags} {r : Request} {ts : List Test} (h : build f r = .ok ts) {t : Test}
    (ht : t ∈ ts) {pattern : Str} (hp : t.params.find "traffic_pattern".toList = some pattern) :
    (∀ x ∈ smallest pattern, ∀ v, t.params.find x.1.toList = some v → v ≠ [] →
      ∀ ch ∈ v, '0' ≤ ch ∧ ch ≤ '9') ∧
    (∀ x ∈ smallest pattern, ∀ n, IsNumber t.params x.1 n → x.2 ≤ n) ∧
    (t.params.find "protocol_driver".toList = some "homa".toList → ∀ key ∈ ["client_threads", "server_threads"],
      ∀ n, IsNumber t.params key n → 1 ≤ n) ∧
    (pattern = "rectangular".toList → ∀ x y, IsNumber t.params "x_size" x → IsNumber t.params "y_size" y →
      x < 2 ^ 31 → y < 2 ^ 31 → 2 ≤ x * y) := by
  obtain ⟨p, hq⟩ := build_finish h ht
  obtain ⟨pattern', hp', hv, hr, hh, -⟩ := finish_checks hq
  rw [hp] at hp'
  cases hp'
  refine ⟨fun x hx v hf hne => (validate_row (hv x hx v hf hne)).2, ?_, ?_, ?_⟩
  · intro x hx n hn
    exact validate_digits (smallest_small _ x hx) (hv x hx _ (isNumber_digits hn) (digits_ne_nil n))
  · intro hd key hk n hn
    obtain ⟨v, h1, h2⟩ := hh hd key hk
    rw [isNumber_digits hn] at h1
    cases h1
    exact validate_digits (m := 1) (by decide) h2
  · intro hpat x y hx hy hxl hyl
    obtain ⟨a, b, n, h1, h2, h3, h4⟩ := hr hpat
    rw [isNumber_digits hx] at h1
    rw [isNumber_digits hy] at h2
    cases h1
    cases h2
    rw [product_digits hxl hyl h3, showInt_nonneg (by omega), Int.toNat_natCast] at h4
    exact validate_digits (m := 2) (by decide) h4

/-- C279: nothing is built when the duration of the command line is zero. -/
theorem C279_duration_partial {f : Flags} {r : Request} {ts : List Test} (h : build f r = .ok ts) :
    (∀ ch ∈ f.duration, '0' ≤ ch ∧ ch ≤ '9') ∧ ∀ n : Nat, f.duration = (toString n).toList → 1 ≤ n := by
  simp only [build, Outcome.bind_ok] at h
  obtain ⟨u, h, -⟩ := h
  refine ⟨(validate_row h).2, fun n hn => ?_⟩
  rw [hn, ← digits_toString] at h
  exact validate_digits (m := 1) (by decide) h

example : (["clique:node_count=1", "clique:rpc_interval_us=99", "rectangular:x_size=1:y_size=1",
    "client_server:client_count=0", "tripartite:data_count=-3", "multi_level_rpc:qps=0",
    "variable_response_multi_level_rpc:exact_size=0", "clique:homa:client_threads=0"].all fun c =>
      match build {} (.configs [c.toList]) with | .ok _ => false | _ => true) = true := by decide +kernel

example : (["clique:node_count=2", "clique:rpc_interval_us=100", "rectangular:x_size=1:y_size=2",
    "client_server:client_count=1", "tripartite:data_count=1", "multi_level_rpc:qps=1",
    "variable_response_multi_level_rpc:exact_size=1", "clique:homa:client_threads=1"].all fun c =>
      match build {} (.configs [c.toList]) with | .ok _ => true | _ => false) = true := by decide +kernel

/-- C279 is false of the sides of a grid, of which only the product is checked, and of a duration that a
configuration gives. -/
theorem C279_ranges_negation :
    (∃ t, build {} (.configs ["rectangular:x_size=-2:y_size=-2".toList]) = .ok [t] ∧
      t.params.find "x_size".toList = some "-2".toList ∧ t.params.find "y_size".toList = some "-2".toList) ∧
    ∃ t, build {} (.configs ["clique:test_duration=0".toList]) = .ok [t] ∧ IsNumber t.params "test_duration" 0 := by
  constructor
  · have h : (match build {} (.configs ["rectangular:x_size=-2:y_size=-2".toList]) with
        | .ok [t] => t.params.find "x_size".toList == some "-2".toList &&
            t.params.find "y_size".toList == some "-2".toList
        | _ => false) = true := by decide +kernel
    split at h
    · next t hb =>
      simp only [Bool.and_eq_true, beq_iff_eq] at h
      exact ⟨t, hb, h.1, h.2⟩
    · cases h
  · have h : (match build {} (.configs ["clique:test_duration=0".toList]) with
        | .ok [t] => t.params.find "test_duration".toList == some (toString 0).toList
        | _ => false) = true := by decide +kernel
    split at h
    · next t hb => exact ⟨t, hb, by simpa [IsNumber] using h⟩
    · cases h

/-! ### C280: how long a test may take -/

theorem traffic_duration {p : Params} {cfg : Config} (h : traffic p = .ok cfg) :
    ∃ v, maxDuration p = .ok v ∧ ∀ a ∈ cfg.actions, ∀ it, a.iterations = some it → it.maxDurationUs = some v := by
  simp only [traffic, Outcome.bind_ok] at h
  obtain ⟨pattern, -, h⟩ := h
  split at h
  · simp only [cliqueTraffic, Outcome.bind_ok] at h
    obtain ⟨_, -, v, e, _, -, _, -, _, -, _, -, _, -, _, -, _, -, h⟩ := h
    injection h with h
    subst h
    refine ⟨v, e, ?_⟩
    intro a ha it hi
    rw [List.mem_singleton.1 ha] at hi
    cases hi
    rfl
  split at h
  · simp only [rectangularTraffic, Outcome.bind_ok] at h
    obtain ⟨_, -, _, -, _, -, _, -, _, -, _, -, v, e, _, -, _, -, _, -, _, -, _, -, _, -, _, -, _, -, _, -, _, -, h⟩ := h
    injection h with h
    subst h
    refine ⟨v, e, ?_⟩
    intro a ha it hi
    rw [List.mem_singleton.1 ha] at hi
    cases hi
    rfl
  split at h
  · simp only [clientServerTraffic, Outcome.bind_ok] at h
    obtain ⟨_, -, _, -, v, e, _, -, h⟩ := h
    injection h with h
    subst h
    refine ⟨v, e, ?_⟩
    intro a ha it hi
    rw [List.mem_singleton.1 ha] at hi
    cases hi
    rfl
  split at h
  · simp only [tripartiteTraffic, Outcome.bind_ok] at h
    obtain ⟨_, -, _, -, _, -, v, e, h⟩ := h
    injection h with h
    subst h
    refine ⟨v, e, ?_⟩
    intro a ha it hi
    simp only [List.mem_cons, List.not_mem_nil, or_false] at ha
    rcases ha with rfl | rfl | rfl <;> cases hi
    rfl
  have hlevels : ∀ {roots leaves v ns warmup : Int}, levelNumbers p = .ok (roots, leaves, v, ns, warmup) →
      maxDuration p = .ok v := by
    intro roots leaves v ns warmup h
    simp only [levelNumbers, Outcome.bind_ok] at h
    obtain ⟨_, -, _, -, v, e, _, -, _, -, _, -, h⟩ := h
    injection h with h
    cases h
    exact e
  split at h
  · simp only [multiLevelTraffic, Outcome.bind_ok] at h
    obtain ⟨⟨roots, leaves, v, ns, warmup⟩, e, h⟩ := h
    injection h with h
    subst h
    refine ⟨v, hlevels e, ?_⟩
    intro a ha it hi
    simp only [threeLevels, List.mem_cons, List.not_mem_nil, or_false] at ha
    rcases ha with rfl | rfl <;> cases hi
    rfl
  · simp only [variableTraffic, Outcome.bind_ok] at h
    obtain ⟨⟨roots, leaves, v, ns, warmup⟩, e, _, -, _, -, _, -, h⟩ := h
    injection h with h
    subst h
    refine ⟨v, hlevels e, ?_⟩
    intro a ha it hi
    simp only [threeLevels, List.mem_cons, List.not_mem_nil, or_false] at ha
    rcases ha with rfl | rfl <;> cases hi
    rfl

/-- The duration in microseconds, whatever the sign. -/
theorem maxDuration_value {p : Params} {text : Str} {d v : Int} (hf : p.find "test_duration".toList = some text)
    (hd : arith text = .ok d) (h : maxDuration p = .ok v) : v = d * 1000000 ∧ InI32 v := by
  simp only [maxDuration, Outcome.bind_ok] at h
  obtain ⟨text', h1, d', h2, h3⟩ := h
  rw [get_ok.1 h1] at hf
  cases hf
  rw [hd] at h2
  cases h2
  refine ⟨?_, protoInt_fits h3⟩
  unfold showInt at h3
  split at h3
  · have he : ∀ r n, literal r = some n → protoInt 32 ('-' :: r) =
        if n ≤ 2 ^ (32 - 1) then .ok (-(n : Int)) else .error "parse" := by
      intro r n hr
      have : protoInt 32 ('-' :: r) = match literal r with
          | some n => if n ≤ 2 ^ (32 - 1) then .ok (-(n : Int)) else .error "parse"
          | none => .error "parse" := rfl
      rw [this, hr]
    rw [List.cons_append, he _ _ (literal_million _)] at h3
    split at h3
    · rw [Outcome.ok.injEq] at h3; omega
    · cases h3
  · rw [protoInt_unsigned (digits_no_sign _ _) (literal_million _)] at h3
    split at h3
    · rw [Outcome.ok.injEq] at h3; omega
    · cases h3

/-- C280: a test of the test builder runs each loop for its duration, and, when the duration is positive, the
sequencer gives it 120 seconds more to come to its end. -/
theorem C280_timeout {f : Flags} {r : Request} {ts : List Test} (h : build f r = .ok ts) {t : Test} (ht : t ∈ ts)
    {name : Str} {opts : Drivers.Options} {cfg : Config} (hr : readTest t = .ok (name, opts, cfg)) :
    ∃ seconds : Int, (∀ n : Nat, n < 2 ^ 63 → IsNumber t.params "test_duration" n → seconds = n) ∧
      (∀ a ∈ cfg.actions, ∀ it, a.iterations = some it → it.maxDurationUs = some (seconds * 1000000)) ∧
      (0 < seconds → ∀ attributes : Sequencer.Map Str,
        attributes.find "test_timeout".toList = t.params.find "test_timeout".toList →
        Timeout.testDeadline attributes = .ok (seconds + 120)) := by
  obtain ⟨p, hq⟩ := build_finish h ht
  obtain ⟨-, -, -, -, -, text, d, hf, hd, htime⟩ := finish_checks hq
  obtain ⟨v, hv, hall⟩ := traffic_duration (readTest_traffic hr)
  obtain ⟨rfl, hfit⟩ := maxDuration_value hf hd hv
  unfold InI32 at hfit
  refine ⟨d, ?_, hall, ?_⟩
  · intro n hn hnum
    rw [isNumber_digits hnum] at hf
    cases hf
    rw [arith_digits hn] at hd
    rw [Outcome.ok.injEq] at hd
    exact hd.symm
  · intro h0 attributes ha
    rw [htime, wrap64_small (by omega) (by omega)] at ha
    exact Timeout.C110_deadline_partial ⟨_, ha, Timeout.denotes_showInt (by omega) (by unfold InI64; omega)⟩
      (by omega) (by omega)

/-- C280, for the client: it waits for the sequence as long as the durations of the tests and 120 seconds for
each of them. -/
theorem C280_client {f : Flags} {r : Request} {ts : List Test} (h : build f r = .ok ts) {seconds : List Nat}
    (hl : seconds.length = ts.length) (hs : ∀ (i : Nat) t n, ts[i]? = some t → seconds[i]? = some n →
      IsNumber t.params "test_duration" n ∧ 0 < n)
    (hfit : (seconds.map fun n : Nat => (n : Int) + 120).sum < 2 ^ 31) {attributes : List (Sequencer.Map Str)}
    (ha : attributes.length = ts.length) (hat : ∀ (i : Nat) t a, ts[i]? = some t → attributes[i]? = some a →
      a.find "test_timeout".toList = t.params.find "test_timeout".toList) :
    Timeout.mainRunTests 0 attributes = .ok (.ok (attributes, (seconds.map fun n : Nat => (n : Int) + 120).sum)) := by
  have hnil : ts ≠ [] := by
    rintro rfl
    rcases build_ok h with ⟨cs, rfl, h'⟩ | ⟨name, a, b, c, cs, values, rfl, hv, h'⟩
    · obtain ⟨more, hm, hlen, -⟩ := buildConfigs_ok h'
      rw [List.nil_append] at hm
      subst hm
      cases cs with
      | nil => simp [build, Outcome.bind_ok] at h
      | cons c cs => cases hlen
    · obtain ⟨more, hm, hlen, -⟩ := sweepLoop_ok (base_nodup f) h'
      rw [List.nil_append] at hm
      subst hm
      simp only [build, Outcome.bind_ok] at h
      obtain ⟨u, -, h⟩ := h
      cases cs with
      | nil => cases h
      | cons c cs =>
        dsimp only at h
        split at h
        · cases h
        · rw [hv] at h
          cases values with
          | nil => cases h
          | cons v values => simp [Nat.succ_mul] at hlen
  have hall : ∀ (ts : List Test) (seconds : List Nat) (attributes : List (Sequencer.Map Str)),
      seconds.length = ts.length → attributes.length = ts.length →
      (∀ t ∈ ts, ∃ p, finish p = .ok t.params) →
      (∀ (i : Nat) t n, ts[i]? = some t → seconds[i]? = some n → IsNumber t.params "test_duration" n ∧ 0 < n) →
      (∀ (i : Nat) t a, ts[i]? = some t → attributes[i]? = some a →
        a.find "test_timeout".toList = t.params.find "test_timeout".toList) →
      (seconds.map fun n : Nat => (n : Int) + 120).sum < 2 ^ 31 →
      AllGiven attributes (seconds.map fun n : Nat => (n : Int) + 120) := by
    intro ts
    induction ts with
    | nil =>
      intro seconds attributes h1 h2 _ _ _ _
      rw [List.length_eq_zero_iff.1 h1, List.length_eq_zero_iff.1 h2]
      exact .nil
    | cons t ts ih =>
      intro seconds attributes h1 h2 hq hs hat hfit
      cases seconds with
      | nil => cases h1
      | cons n seconds =>
        cases attributes with
        | nil => cases h2
        | cons a attributes =>
          have hpos : 0 ≤ (seconds.map fun n : Nat => (n : Int) + 120).sum := by
            clear ih h1 hs hfit
            induction seconds with
            | nil => simp
            | cons m ms ih => simp only [List.map_cons, List.sum_cons]; omega
          rw [List.map_cons, List.sum_cons] at hfit
          obtain ⟨hn, hn0⟩ := hs 0 t n rfl rfl
          obtain ⟨p, hp⟩ := hq t List.mem_cons_self
          obtain ⟨-, -, -, -, -, text, d, hf, hd, htime⟩ := finish_checks hp
          rw [isNumber_digits hn] at hf
          cases hf
          rw [arith_digits (by omega), Outcome.ok.injEq] at hd
          subst hd
          rw [wrap64_small (by omega) (by omega)] at htime
          refine .cons ⟨_, (hat 0 t a rfl rfl).trans htime,
            Timeout.denotes_showInt (by omega) (by unfold InI64; omega)⟩
            (show (0 : Int) < (n : Int) + 120 by omega) ?_
          exact ih seconds attributes (by simpa using h1) (by simpa using h2)
            (fun u hu => hq u (List.mem_cons_of_mem _ hu)) (fun i => hs (i + 1)) (fun i => hat (i + 1)) (by omega)
  refine (Timeout.C109_client_waits_partial (hall ts seconds attributes hl ha (fun t ht => build_finish h ht) hs hat
    hfit) ?_ hfit).1
  intro he
  rw [he] at ha
  exact hnil (List.length_eq_zero_iff.1 ha.symm)

example : (match build { duration := "20".toList } (.configs ["clique".toList, "tripartite:test_duration=60".toList]) with
    | .ok [t, u] => t.params.find "test_duration".toList == some (toString 20).toList &&
        u.params.find "test_duration".toList == some (toString 60).toList &&
        t.params.find "test_timeout".toList == some "140".toList &&
        u.params.find "test_timeout".toList == some "180".toList &&
        (match readTest t, readTest u with
          | .ok (_, _, c), .ok (_, _, d) => (c.actions.filterMap (·.iterations)).map (·.maxDurationUs) == [some 20000000] &&
              (d.actions.filterMap (·.iterations)).map (·.maxDurationUs) == [some 60000000]
          | _, _ => false)
    | _ => false) = true := by decide +kernel

end Distbench.Builder
