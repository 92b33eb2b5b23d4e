import Verif.Lemmas.Builder
import Verif.Spec.Builder
import Verif.Props.Fanout

/-! Property theorems C270-C274: the test builder. -/

namespace Distbench.Builder
open Services Tables Spec

theorem build_ok {f : Flags} {r : Request} {ts : List Test} (h : build f r = .ok ts) :
    (∃ cs, r = .configs cs ∧ buildConfigs f (baseParams f) cs [] = .ok ts) ∨
    ∃ name start step stop cs values, r = .sweep name start step stop cs ∧
      sequence start step stop = some values ∧ sweepLoop f name cs values (baseParams f) [] = .ok ts := by
  simp only [build, Outcome.bind_ok] at h
  obtain ⟨u, -, h⟩ := h
  cases r with
  | configs cs =>
    cases cs with
    | nil => cases h
    | cons c cs => exact Or.inl ⟨_, rfl, h⟩
  | sweep name start step stop cs =>
    cases cs with
    | nil => cases h
    | cons c cs =>
      dsimp only at h
      split at h
      · cases h
      · split at h
        · cases h
        · cases h
        · rename_i values _ hs
          exact Or.inr ⟨_, _, _, _, _, _, rfl, hs, h⟩

theorem base_nodup (f : Flags) : ((baseParams f).map (·.1)).Nodup := by simp [baseParams]

theorem build_consistent {f : Flags} {r : Request} {ts : List Test} (h : build f r = .ok ts) :
    Consistent ts := by
  have nil : Consistent [] := fun t ht => by cases ht
  rcases build_ok h with ⟨cs, -, h⟩ | ⟨name, start, step, stop, cs, values, -, -, h⟩
  · exact (buildConfigs_ok h).choose_spec.2.2.2 nil
  · exact (sweepLoop_ok (base_nodup f) h).choose_spec.2.2.2 nil

/-! ### C270: one name, one test -/

theorem read_congr {t u : Test} (hn : t.name = u.name) (h : ∀ key, t.params.find key = u.params.find key) :
    readTest t = readTest u := by
  have hf : t.params.find = u.params.find := funext h
  have hg : get t.params = get u.params := by funext k; unfold get; rw [hf]
  have hd : driverOptions t.params = driverOptions u.params := by
    unfold driverOptions ipVersion
    rw [hf, hg]
  have hnum : ∀ b, number b t.params = number b u.params := by
    intro b; funext k; unfold number; rw [hg]
  have hmd : maxDuration t.params = maxDuration u.params := by unfold maxDuration; rw [hg]
  have hin : interval t.params = interval u.params := by unfold interval; rw [hg]
  have hl : levelNumbers t.params = levelNumbers u.params := by
    unfold levelNumbers; rw [hg, hnum, hmd]
  have hr : sizeTexts t.params = sizeTexts u.params := by
    have hdef : ∀ key v, key ∈ ["lower_size", "upper_size"] → (key, v) ∈ [("lower_size", "1024"), ("upper_size", "64000")] →
        get (setDefaults t.params [("lower_size", "1024"), ("upper_size", "64000")]) key =
        get (setDefaults u.params [("lower_size", "1024"), ("upper_size", "64000")]) key := by
      intro key v _ hm
      have hv : v ≠ "" := by
        simp only [List.mem_cons, Prod.mk.injEq, List.not_mem_nil, or_false] at hm
        rcases hm with ⟨-, rfl⟩ | ⟨-, rfl⟩ <;> decide
      unfold get
      rw [find_setDefaults hm (by decide) hv, find_setDefaults hm (by decide) hv, hf]
    unfold sizeTexts responseSizes
    rw [hf]
    split
    · split <;> rfl
    · have h1 := hdef "lower_size" "1024" (by simp) (by simp)
      have h2 := hdef "upper_size" "64000" (by simp) (by simp)
      dsimp only
      rw [h1, h2]
      cases get (setDefaults u.params [("lower_size", "1024"), ("upper_size", "64000")]) "lower_size" <;>
        cases get (setDefaults u.params [("lower_size", "1024"), ("upper_size", "64000")]) "upper_size" <;> rfl
  have ht : traffic t.params = traffic u.params := by
    unfold traffic cliqueTraffic rectangularTraffic clientServerTraffic tripartiteTraffic multiLevelTraffic
      variableTraffic
    rw [hg, hnum, hnum, hmd, hin, hl, hr]
  unfold readTest
  rw [hf, hn, hd, ht]

/-- C270: two tests of a sequence that have the same name have the same attributes, and distbench reads
the same test from them. -/
theorem C270_one_test {f : Flags} {r : Request} {ts : List Test} (h : build f r = .ok ts) {t u : Test}
    (ht : t ∈ ts) (hu : u ∈ ts) (hn : t.name = u.name) :
    SameAttributes t.params u.params ∧ readTest t = readTest u :=
  ⟨build_consistent h t ht u hu hn, read_congr hn (build_consistent h t ht u hu hn)⟩

/-- A configuration that is given twice. -/
example : (match build {} (.configs ["clique".toList, "clique".toList]) with
    | .ok [t, u] => t.name = u.name && t == u
    | _ => false) = true := by decide +kernel

/-- The same name with another definition is refused: the tracing interval is not part of the name. -/
example : build {} (.configs ["rectangular".toList, "rectangular:tracing_interval=4".toList]) =
    .error "exit 12" := by decide +kernel

/-! ### C271: tests do not depend on each other -/

/-- C271: there is one test for each configuration, in their order, the same as if the configuration had
been the only one. -/
theorem C271_configs {f : Flags} {cs : List Str} {ts : List Test} (h : build f (.configs cs) = .ok ts) :
    ts.length = cs.length ∧ ∀ (i : Nat) c, cs[i]? = some c →
      ∃ t, ts[i]? = some t ∧ build f (.configs [c]) = .ok [t] := by
  have hv : validateInteger 1 f.duration = .ok () := by
    simp only [build, Outcome.bind_ok] at h
    exact h.choose_spec.1
  rcases build_ok h with ⟨cs', he, h⟩ | ⟨name, start, step, stop, cs', values, he, -⟩
  · cases he
    obtain ⟨more, rfl, h1, h2, -⟩ := buildConfigs_ok h
    refine ⟨h1, fun i c hi => ?_⟩
    obtain ⟨t, ht, hb⟩ := h2 i c hi
    exact ⟨t, ht, by simp only [build, Outcome.bind_ok]; exact ⟨(), hv, hb⟩⟩
  · cases he

theorem sequence_values {start step stop : Int} {values : List Int}
    (h : sequence start step stop = some values) : SweepValues start step stop values := by
  unfold sequence at h
  intro i v
  split at h
  · cases h
  · rename_i h0
    split at h
    · rename_i hpos
      cases h
      rw [List.getElem?_map]
      have hle : ∀ n : Int, 0 ≤ n → (n < (stop - start) / step + 1 ↔ start + step * n ≤ stop) := by
        intro n _
        rw [Int.lt_add_one_iff, Int.le_ediv_iff_mul_le hpos, Int.mul_comm]
        omega
      have := hle i (by omega)
      by_cases hi : i < ((stop - start) / step + 1).toNat
      · rw [List.getElem?_range hi]
        simp only [Option.map_some, Option.some.injEq]
        constructor
        · rintro rfl; exact ⟨rfl, Or.inl ⟨hpos, this.1 (by omega)⟩⟩
        · rintro ⟨rfl, -⟩; rfl
      · rw [List.getElem?_eq_none (by simpa using hi)]
        simp only [Option.map_none, reduceCtorEq, false_iff, not_and]
        rintro rfl h
        rcases h with ⟨-, h⟩ | ⟨h, -⟩
        · have := this.2 h; omega
        · omega
    · rename_i hpos
      have hneg : 0 < -step := by omega
      cases h
      rw [List.getElem?_map]
      have hle : ∀ n : Int, 0 ≤ n → (n < (start - stop) / -step + 1 ↔ stop ≤ start + step * n) := by
        intro n _
        rw [Int.lt_add_one_iff, Int.le_ediv_iff_mul_le hneg, Int.mul_neg, Int.mul_comm n]
        omega
      have := hle i (by omega)
      by_cases hi : i < ((start - stop) / -step + 1).toNat
      · rw [List.getElem?_range hi]
        simp only [Option.map_some, Option.some.injEq]
        constructor
        · rintro rfl; exact ⟨rfl, Or.inr ⟨by omega, this.1 (by omega)⟩⟩
        · rintro ⟨rfl, -⟩; rfl
      · rw [List.getElem?_eq_none (by simpa using hi)]
        simp only [Option.map_none, reduceCtorEq, false_iff, not_and]
        rintro rfl h
        rcases h with ⟨h, -⟩ | ⟨-, h⟩
        · omega
        · have := this.2 h; omega

theorem sequence_single (v : Int) : sequence v 1 v = some [v] := by
  unfold sequence
  rw [if_neg (by decide), if_pos (by decide), Int.sub_self]
  simp [List.range_succ]

/-- C271: a sweep gives one test for each value and each configuration, in that order, the same as if the
value had been the only one and the configuration too. -/
theorem C271_sweep {f : Flags} {name : Str} {start step stop : Int} {cs : List Str} {ts : List Test}
    (h : build f (.sweep name start step stop cs) = .ok ts) :
    ∃ values, SweepValues start step stop values ∧ ts.length = values.length * cs.length ∧
      ∀ (i j : Nat) v c, values[i]? = some v → cs[j]? = some c →
        ∃ t, ts[i * cs.length + j]? = some t ∧ build f (.sweep name v 1 v [c]) = .ok [t] := by
  have hv : validateInteger 1 f.duration = .ok () ∧ ¬ (name = [] ∨ [] ∈ fieldsAt ',' name) := by
    simp only [build, Outcome.bind_ok] at h
    obtain ⟨u, h1, h2⟩ := h
    refine ⟨h1, fun hn => ?_⟩
    cases cs with
    | nil => cases h2
    | cons c cs => dsimp only at h2; rw [if_pos hn] at h2; cases h2
  rcases build_ok h with ⟨cs', he, h⟩ | ⟨name, start, step, stop, cs', values, he, hs, h⟩
  · cases he
  · cases he
    obtain ⟨more, rfl, h1, h2, -⟩ := sweepLoop_ok (base_nodup f) h
    refine ⟨values, sequence_values hs, h1, fun i j v c hi hj => ?_⟩
    obtain ⟨t, ht, hb⟩ := h2 i j v c hi hj
    refine ⟨t, ht, ?_⟩
    simp only [build, Outcome.bind_ok]
    refine ⟨(), hv.1, ?_⟩
    rw [if_neg hv.2, sequence_single]
    dsimp only
    rw [sweepLoop, Outcome.bind_ok]
    exact ⟨[t], hb, rfl⟩

example : (match build {} (.sweep "node_count".toList 5 5 14 ["clique".toList]) with
    | .ok [t, u] => t.params.find "node_count".toList == some "5".toList &&
        u.params.find "node_count".toList == some "10".toList
    | _ => false) = true := by decide +kernel

/-! ### C272: configuration strings -/

theorem givenLast_eq (l : List (Str × Str)) (key : Str) : givenLast l key = lastValue l key := by
  unfold givenLast lastValue
  rw [← List.head?_filter, List.filter_reverse, List.head?_reverse]

theorem fields_two {key value : Str} (hk : '=' ∉ key) (hv : '=' ∉ value) (hne : value ≠ []) :
    fieldsAt '=' (key ++ '=' :: value) = [key, value] := by
  unfold fieldsAt
  rw [(split_plain hk value).1, (split_plain hv []).2]
  simp [hne]

theorem fields_plain {part : Str} (h : '=' ∉ part) : ∀ key value, fieldsAt '=' part ≠ [key, value] := by
  intro key value
  unfold fieldsAt
  rw [(split_plain h []).2]
  dsimp only
  split <;> simp

theorem parsePart_plain {files : Str → Option Str} {p : Params} {part : Str} (h : '=' ∉ part) :
    parsePart files p part =
      if part ∈ protocolNames then .ok (p.set "protocol_driver".toList part)
      else if part ∈ patternNames then .ok (p.set "traffic_pattern".toList part)
      else if part = "ipv6".toList then
        .ok (p.setAll [("ip_version".toList, "6".toList), ("ip_version_string".toList, "ipv6".toList)])
      else if part = "ipv4".toList then
        .ok (p.setAll [("ip_version".toList, "4".toList), ("ip_version_string".toList, "ipv4".toList)])
      else .error "exit 11" := by
  unfold parsePart
  split
  · next key value he => exact absurd he (fields_plain h key value)
  · rfl

theorem parsePart_means {files : Str → Option Str} {part : Str} {l : List (Str × Str)}
    (h : PartMeans files part l) (p : Params) : parsePart files p part = .ok (p.setAll l) := by
  cases h with
  | value hk hke hv hve hh =>
    rename_i key value
    unfold parsePart
    rw [fields_two hke hve hv]
    dsimp only
    rw [if_neg hk]
    split
    · next file => exact absurd rfl hh
    · rfl
  | file hk hke hfe hf =>
    rename_i key file contents
    unfold parsePart
    rw [fields_two hke (by simp [hfe]) (by simp)]
    dsimp only
    rw [if_neg hk]
    show (match files file with
      | some contents => Outcome.ok (p.set key contents)
      | none => .error "exit 15") = _
    rw [hf]
    rfl
  | protocol hm =>
    have hp : '=' ∉ part := by revert part; decide
    rw [parsePart_plain hp, if_pos (show part ∈ protocolNames from hm)]
    rfl
  | pattern hm =>
    have hp : '=' ∉ part ∧ part ∉ protocolNames := by revert part; decide
    rw [parsePart_plain hp.1, if_neg hp.2, if_pos (show part ∈ patternNames from hm)]
    rfl
  | ipv4 => rw [parsePart_plain (by decide)]; rfl
  | ipv6 => rw [parsePart_plain (by decide)]; rfl

theorem parseParts_means {files : Str → Option Str} {parts : List Str} {l : List (Str × Str)}
    (h : PartsMean files parts l) (p : Params) : parseParts files p parts = .ok (p.setAll l) := by
  induction h generalizing p with
  | nil => rfl
  | @cons part rest l m hp hr ih =>
    rw [parseParts, Outcome.bind_ok]
    refine ⟨_, parsePart_means hp p, ?_⟩
    rw [ih, setAll_append]

theorem fullConfig_eq (f : Flags) (c : Str) : prefixed f c = fullConfig f c := by
  unfold prefixed fullConfig
  cases f.configPrefix <;> rfl

/-- What a test of one configuration has of the configuration. -/
theorem config_attributes {f : Flags} {base : Params} {c : Str} {t : Test} {parts : List Str}
    {l : List (Str × Str)} (h : buildConfigs f base [c] [] = .ok [t])
    (hs : fullConfig f c = separated ':' parts) (hne : parts ≠ []) (hno : ∀ part ∈ parts, ':' ∉ part)
    (hm : PartsMean f.files parts l) :
    (∀ key, key ∉ ownAttributes → ∀ v, (givenLast l key).or (base.find key) = some v →
      t.params.find key = some v) ∧
    t.params.find "config_label".toList = some (f.labelPrefix ++ c) ∧
    t.params.find "traffic_pattern".toList =
      (givenLast l "traffic_pattern".toList).or (base.find "traffic_pattern".toList) ∧
    t.params.find "protocol_driver".toList = some (protocolUsed (base.setAll l)) := by
  simp only [buildConfigs, Outcome.bind_ok] at h
  obtain ⟨p, h1, ts, h2, h3⟩ := h
  injection h3 with h3
  subst h3
  unfold parseConfig at h1
  rw [fullConfig_eq, hs, split_separated hne hno, parseParts_means hm] at h1
  injection h1 with h1
  subst h1
  simp only [addTest, Outcome.bind_ok] at h2
  obtain ⟨q, hq, name, hname, h2⟩ := h2
  injection h2 with h2
  rw [List.nil_append, List.cons.injEq] at h2
  obtain ⟨rfl, -⟩ := h2
  obtain ⟨hk, hd, pattern, hp1, hp2⟩ := finish_ok hq
  dsimp only
  have hset : ∀ key, "config_label".toList ≠ key →
      ((base.setAll l).set "config_label".toList (f.labelPrefix ++ c)).find key =
        (givenLast l key).or (base.find key) := by
    intro key hne
    rw [find_set, if_neg hne, find_setAll, givenLast_eq]
  refine ⟨fun key hkey v hv => ?_, ?_, ?_, ?_⟩
  · apply hk key
    · intro hm
      exact hkey ((by decide : ∀ k ∈ protocolOwn ++ patternOwn, k ∈ ownAttributes) key hm)
    · rw [hset key (fun e => hkey (e ▸ by decide))]
      exact hv
  · apply hk _ (by decide)
    rw [find_set, if_pos rfl]
  · rw [hset _ (by decide)] at hp1
    rw [hp2, hp1]
  · rw [hd]
    unfold protocolUsed
    rw [hset _ (by decide), find_setAll, givenLast_eq]

/-- C272: a test has the attributes that its configuration gives it, the last value of each, besides
those that the tool sets itself; it is of the traffic pattern that was given, and uses the protocol
driver that was given last, or gRPC. -/
theorem C272_attributes {f : Flags} {c : Str} {t : Test} {parts : List Str} {l : List (Str × Str)}
    (h : build f (.configs [c]) = .ok [t]) (hs : fullConfig f c = separated ':' parts)
    (hne : parts ≠ []) (hno : ∀ part ∈ parts, ':' ∉ part) (hm : PartsMean f.files parts l) :
    (∀ key, key ∉ ownAttributes → ∀ v,
      givenLast (("test_duration".toList, f.duration) :: l) key = some v → t.params.find key = some v) ∧
    t.params.find "config_label".toList = some (f.labelPrefix ++ c) ∧
    t.params.find "traffic_pattern".toList = givenLast l "traffic_pattern".toList ∧
    (∀ v, givenLast l "protocol_driver".toList = some v → v ≠ [] →
      t.params.find "protocol_driver".toList = some v) ∧
    (givenLast l "protocol_driver".toList = none →
      t.params.find "protocol_driver".toList = some "grpc".toList) := by
  rcases build_ok h with ⟨cs, he, h⟩ | ⟨_, _, _, _, _, _, he, -⟩
  · cases he
    obtain ⟨h1, h2, h3, h4⟩ := config_attributes h hs hne hno hm
    have hb : ∀ key, ((baseParams f).setAll l).find key =
        (givenLast l key).or ((baseParams f).find key) := by
      intro key; rw [find_setAll, givenLast_eq]
    refine ⟨fun key hkey v hv => h1 key hkey v ?_, h2, ?_, ?_, ?_⟩
    · rw [givenLast_eq] at hv ⊢
      rw [← hv]
      have := find_setAll (("test_duration".toList, f.duration) :: l) [] key
      rw [Params.setAll, find_setAll] at this
      rw [show Params.find [] key = none from rfl, Option.or_none] at this
      exact this
    · rw [h3, show (baseParams f).find "traffic_pattern".toList = none from rfl, Option.or_none]
    · intro v hv hne
      rw [h4]
      unfold protocolUsed
      rw [hb, hv]
      cases v with
      | nil => exact absurd rfl hne
      | cons a v => rfl
    · intro hv
      rw [h4]
      unfold protocolUsed
      rw [hb, hv]
      rfl
  · cases he

example : (match build { labelPrefix := "x-".toList } (.configs ["clique:homa:node_count=4:colour=red:node_count=6".toList]) with
    | .ok [t] => t.params.find "node_count".toList == some "6".toList &&
        t.params.find "colour".toList == some "red".toList &&
        t.params.find "protocol_driver".toList == some "homa".toList &&
        t.params.find "config_label".toList ==
          some "x-clique:homa:node_count=4:colour=red:node_count=6".toList
    | _ => false) = true := by decide +kernel

example : PartsMean (fun _ => none) ["clique".toList, "node_count=4".toList]
    [("traffic_pattern".toList, "clique".toList), ("node_count".toList, "4".toList)] :=
  .cons (l := [_]) (.pattern (by decide)) (.cons (l := [_])
    (.value (key := "node_count".toList) (value := "4".toList) (by decide) (by decide) (by decide)
      (by decide) (by decide)) .nil)

/-- C272, for sweeps: a swept parameter has the value of the sweep unless the configuration gives it
another. -/
theorem C272_sweep {f : Flags} {name : Str} {v : Int} {c : Str} {t : Test} {parts names : List Str}
    {l : List (Str × Str)} (h : build f (.sweep name v 1 v [c]) = .ok [t])
    (hs : fullConfig f c = separated ':' parts) (hne : parts ≠ []) (hno : ∀ part ∈ parts, ':' ∉ part)
    (hm : PartsMean f.files parts l) (hn : name = separated ',' names)
    (hnames : ∀ n ∈ names, n ≠ [] ∧ ',' ∉ n ∧ n ∉ ownAttributes) :
    ∀ n ∈ names, t.params.find n = some ((givenLast l n).getD (showInt v)) := by
  intro n hmem
  have hne' : names ≠ [] := by rintro rfl; cases hmem
  rcases build_ok h with ⟨cs, he, h⟩ | ⟨_, _, _, _, _, values, he, hv, h⟩
  · cases he
  · cases he
    rw [sequence_single] at hv
    cases hv
    rw [sweepLoop, Outcome.bind_ok] at h
    obtain ⟨ts, h1, h2⟩ := h
    injection h2 with h2
    subst h2
    refine (config_attributes h1 hs hne hno hm).1 n (hnames n hmem).2.2 _ ?_
    cases hg : givenLast l n with
    | some w => rfl
    | none =>
      rw [Option.none_or, Option.getD_none]
      unfold sweepParams
      have hfields : fieldsAt ',' name = names := by
        unfold fieldsAt
        rw [hn, split_separated hne' fun w hw => (hnames w hw).2.1]
        dsimp only
        rw [if_neg]
        intro hl
        exact (hnames _ (List.mem_of_getLast? hl)).1 rfl
      rw [hfields, find_setAll]
      have : ∀ ns : List Str, n ∈ ns → lastValue (ns.map fun n => (n, showInt v)) n = some (showInt v) := by
        intro ns hns
        unfold lastValue
        cases hf : (ns.map fun n => (n, showInt v)).reverse.find? fun x => x.1 = n with
        | none =>
          rw [List.find?_eq_none] at hf
          exact absurd (hf (n, showInt v) (by simp [hns])) (by simp)
        | some x =>
          have hx := List.mem_of_find?_eq_some hf
          rw [List.mem_reverse, List.mem_map] at hx
          obtain ⟨y, -, rfl⟩ := hx
          rfl
      rw [this names hmem]
      rfl

/-- Two parameters with the same values. -/
example : (match build {} (.sweep "request_size,response_size".toList 64 64 130 ["clique".toList]) with
    | .ok [t, u] => t.params.find "request_size".toList == some "64".toList &&
        t.params.find "response_size".toList == some "64".toList &&
        u.params.find "request_size".toList == some "128".toList &&
        u.params.find "response_size".toList == some "128".toList
    | _ => false) = true := by decide +kernel

theorem parsePart_ok {files : Str → Option Str} {part : Str} {p q : Params}
    (h : parsePart files p part = .ok q) :
    (∃ l, PartMeans files part l) ∨ part.getLast? = some '=' := by
  have hsep := separated_split '=' part
  have hno := split_no_sep '=' part
  unfold parsePart at h
  split at h
  · next key value he =>
    have hcase : Fanout.strSplit '=' part = [key, value] ∧ value ≠ [] ∨
        Fanout.strSplit '=' part = [key, value, []] := by
      unfold fieldsAt at he
      dsimp only at he
      split at he
      · next hl =>
        right
        obtain ⟨ys, hys⟩ := List.getLast?_eq_some_iff.1 hl
        rw [hys, List.dropLast_concat] at he
        rw [hys, he]
        rfl
      · next hl =>
        left
        exact ⟨he, fun hv => hl (by rw [he, hv]; rfl)⟩
    rcases hcase with ⟨hc, hv⟩ | hc
    · left
      rw [hc] at hsep hno
      have hk1 := hno key (by simp)
      have hv1 := hno value (by simp)
      rw [separated, separated] at hsep
      subst hsep
      split at h
      · cases h
      · next hk =>
        split at h
        · next file =>
          split at h
          · next contents hf => exact ⟨_, .file hk hk1 (fun hm => hv1 (by simp [hm])) hf⟩
          · cases h
        · next hlt =>
          refine ⟨_, .value hk hk1 hv hv1 ?_⟩
          intro hh
          cases value with
          | nil => exact hv rfl
          | cons a r => cases hh; exact hlt r rfl
    · right
      rw [hc, separated, separated, separated] at hsep
      rw [← hsep]
      simp [List.getLast?_append, List.getLast?_cons]
  · left
    split at h
    · next hm => exact ⟨_, .protocol hm⟩
    · split at h
      · next hm => exact ⟨_, .pattern hm⟩
      · split at h
        · next hm => subst hm; exact ⟨_, .ipv6⟩
        · split at h
          · next hm => subst hm; exact ⟨_, .ipv4⟩
          · cases h

theorem parseParts_ok {files : Str → Option Str} {parts : List Str} {p q : Params}
    (h : parseParts files p parts = .ok q) :
    ∀ part ∈ parts, (∃ l, PartMeans files part l) ∨ part.getLast? = some '=' := by
  induction parts generalizing p with
  | nil => intro part hm; cases hm
  | cons x rest ih =>
    rw [parseParts, Outcome.bind_ok] at h
    obtain ⟨r, h1, h2⟩ := h
    intro part hm
    rcases List.mem_cons.1 hm with rfl | hm
    · exact parsePart_ok h1
    · exact ih h2 part hm

/-- C272, refusals: no test is made of a configuration with a part that means nothing.  What is missing
is a part that ends with an equals sign: see `C272_refused_negation`. -/
theorem C272_refused_partial {f : Flags} {c : Str} {ts : List Test} (h : build f (.configs [c]) = .ok ts)
    {parts : List Str} (hs : fullConfig f c = separated ':' parts) (hne : parts ≠ [])
    (hno : ∀ part ∈ parts, ':' ∉ part) :
    ∀ part ∈ parts, (∃ l, PartMeans f.files part l) ∨ part.getLast? = some '=' := by
  rcases build_ok h with ⟨cs, he, h⟩ | ⟨_, _, _, _, _, _, he, -⟩
  · cases he
    simp only [buildConfigs, Outcome.bind_ok] at h
    obtain ⟨p, h1, -⟩ := h
    unfold parseConfig at h1
    rw [fullConfig_eq, hs, split_separated hne hno] at h1
    exact parseParts_ok h1
  · cases he

/-- An unknown word, a missing value and a missing file are refused. -/
example : build {} (.configs ["clique:fast".toList]) = .error "exit 11" ∧
    build {} (.configs ["clique:node_count=".toList]) = .error "exit 11" ∧
    build {} (.configs ["clique:node_count=<nodes".toList]) = .error "exit 15" := by decide +kernel

/-- C272 is false of a part that ends with an equals sign: it is taken as if the sign were not there. -/
theorem C272_refused_negation : ∃ c parts, fullConfig {} c = separated ':' parts ∧
    (∀ part ∈ parts, ':' ∉ part) ∧ (∃ part ∈ parts, ∀ l, ¬ PartMeans (fun _ => none) part l) ∧
    ∃ ts, build {} (.configs [c]) = .ok ts := by
  refine ⟨"clique:node_count=4=".toList, ["clique".toList, "node_count=4=".toList], by decide, by decide,
    ⟨"node_count=4=".toList, by decide, ?_⟩, ?_⟩
  · intro l h
    generalize hp : "node_count=4=".toList = part at h
    cases h with
    | value hk hke hv hve hh =>
      rename_i key value
      have := congrArg (Fanout.strSplit '=') hp
      rw [(split_plain hke value).1, (split_plain hve []).2] at this
      exact absurd (congrArg List.length this) (by rw [List.length_cons, List.length_singleton]; decide)
    | file hk hke hfe hf => cases hf
    | protocol hm => subst hp; revert hm; decide
    | pattern hm => subst hp; revert hm; decide
    | ipv4 => revert hp; decide
    | ipv6 => revert hp; decide
  · have : (match build {} (.configs ["clique:node_count=4=".toList]) with
      | .ok _ => true
      | _ => false) = true := by decide +kernel
    split at this
    · next ts hb => exact ⟨ts, hb⟩
    · cases this

/-! ### C273: results in the output directory -/

theorem runAll_ok (f : Flags) : ∀ (ts : List Test) (r : Results),
    (∀ file q, r file = some q → (runAll f ts r).1 file = some q) ∧
    (∀ file, r file = none → ∀ q, (runAll f ts r).1 file = some q →
      ∃ t ∈ (runAll f ts r).2, file = resultFile f t.name ∧ q = t.params) ∧
    (∀ t ∈ (runAll f ts r).2, t ∈ ts ∧ r (resultFile f t.name) = none) ∧
    (∀ t ∈ ts, ((runAll f ts r).1 (resultFile f t.name)).isSome) ∧
    ((runAll f ts r).2.map fun t => resultFile f t.name).Nodup := by
  intro ts
  induction ts with
  | nil =>
    intro r
    refine ⟨fun _ _ h => h, fun file h q hq => ?_, fun t ht => ?_, fun t ht => ?_, List.nodup_nil⟩
    · rw [show (runAll f [] r).1 file = r file from rfl, h] at hq
      cases hq
    · cases ht
    · cases ht
  | cons t rest ih =>
    intro r
    rw [runAll]
    cases hr : r (resultFile f t.name) with
    | some old =>
      obtain ⟨i1, i2, i3, i4, i5⟩ := ih r
      refine ⟨i1, i2, fun u hu => ⟨List.mem_cons_of_mem _ (i3 u hu).1, (i3 u hu).2⟩, ?_, i5⟩
      intro u hu
      rcases List.mem_cons.1 hu with rfl | hu
      · rw [i1 _ _ hr]; rfl
      · exact i4 u hu
    | none =>
      dsimp only
      generalize hr' : (fun file => if file = resultFile f t.name then some t.params else r file) = r'
      have hr'' : ∀ file, r' file = if file = resultFile f t.name then some t.params else r file := by
        intro file; rw [← hr']
      obtain ⟨i1, i2, i3, i4, i5⟩ := ih r'
      have hself : r' (resultFile f t.name) = some t.params := by rw [hr'', if_pos rfl]
      refine ⟨?_, ?_, ?_, ?_, ?_⟩
      · intro file q hq
        apply i1
        rw [hr'', if_neg, hq]
        rintro rfl
        rw [hr] at hq; cases hq
      · intro file hn q hq
        by_cases hf : file = resultFile f t.name
        · subst hf
          refine ⟨t, List.mem_cons_self, rfl, ?_⟩
          rw [i1 _ _ hself] at hq
          exact (Option.some.inj hq).symm
        · obtain ⟨u, hu, h1, h2⟩ := i2 file (by rw [hr'', if_neg hf, hn]) q hq
          exact ⟨u, List.mem_cons_of_mem _ hu, h1, h2⟩
      · intro u hu
        rcases List.mem_cons.1 hu with rfl | hu
        · exact ⟨List.mem_cons_self, hr⟩
        · obtain ⟨h1, h2⟩ := i3 u hu
          refine ⟨List.mem_cons_of_mem _ h1, ?_⟩
          rw [hr''] at h2
          split at h2
          · cases h2
          · exact h2
      · intro u hu
        rcases List.mem_cons.1 hu with rfl | hu
        · rw [i1 _ _ hself]; rfl
        · exact i4 u hu
      · rw [List.map_cons, List.nodup_cons]
        refine ⟨?_, i5⟩
        intro hm
        obtain ⟨u, hu, he⟩ := List.mem_map.1 hm
        have := (i3 u hu).2
        rw [he, hself] at this
        cases this

/-- C273: a test is run only if there is no file with results for it, at most once; what was in the
output directory stays, and nothing is written there but the results of tests that were run. -/
theorem C273_runs {f : Flags} {q : Request} {ts : List Test} (_h : build f q = .ok ts) (r : Results) :
    (∀ t ∈ (runAll f ts r).2, t ∈ ts ∧ r (f.labelPrefix ++ t.name ++ ".pb.gz".toList) = none) ∧
    ((runAll f ts r).2.map (·.name)).Nodup ∧
    (∀ file old, r file = some old → (runAll f ts r).1 file = some old) ∧
    (∀ file, r file = none → ∀ new, (runAll f ts r).1 file = some new →
      ∃ t ∈ (runAll f ts r).2, file = f.labelPrefix ++ t.name ++ ".pb.gz".toList ∧ new = t.params) := by
  obtain ⟨h1, h2, h3, -, h5⟩ := runAll_ok f ts r
  refine ⟨h3, ?_, h1, h2⟩
  have : (runAll f ts r).2.map (fun t => resultFile f t.name) =
      ((runAll f ts r).2.map (·.name)).map (resultFile f) := by rw [List.map_map]; rfl
  rw [this] at h5
  rw [List.Nodup, List.pairwise_map] at h5
  exact h5.imp fun hne he => hne (congrArg _ he)

/-- C273: afterwards the directory has results of every test, if the results that were there before
under the names of these tests were results of these tests.  What is missing is a directory in which
they are of other tests: see `C273_results_negation`. -/
theorem C273_results_partial {f : Flags} {q : Request} {ts : List Test} (h : build f q = .ok ts)
    {r : Results} (hr : ∀ t ∈ ts, ∀ old, r (f.labelPrefix ++ t.name ++ ".pb.gz".toList) = some old →
      SameAttributes old t.params) : HasResults f ts (runAll f ts r).1 := by
  obtain ⟨h1, h2, h3, h4, -⟩ := runAll_ok f ts r
  intro t ht
  obtain ⟨new, hnew⟩ := Option.isSome_iff_exists.1 (h4 t ht)
  refine ⟨new, hnew, ?_⟩
  cases hold : r (resultFile f t.name) with
  | some old =>
    rw [h1 _ _ hold] at hnew
    cases hnew
    exact hr t ht _ hold
  | none =>
    obtain ⟨u, hu, he, rfl⟩ := h2 _ hold _ hnew
    have hn : u.name = t.name := by
      unfold resultFile at he
      exact (List.append_cancel_left (List.append_cancel_right he)).symm
    exact (build_consistent h) u (h3 u hu).1 t ht hn

/-- The tests that are made, for examples. -/
def testsOf (f : Flags) (q : Request) : List Test :=
  match build f q with
  | .ok ts => ts
  | _ => []

/-- A second run of the tool with the same tests and one more. -/
example : (runAll {} (testsOf {} (.configs ["clique".toList, "tripartite".toList]))
      (runAll {} (testsOf {} (.configs ["clique".toList])) fun _ => none).1).2.map (·.name) =
    ["tripartite_1x1x10-grpc_polling_inline".toList] := by decide +kernel

/-- C273 is false where the directory has results of a run with another duration: the name of a test does
not say how long it takes, and the old results pass for results of the new test. -/
theorem C273_results_negation : ∃ (f g : Flags) (q : Request) (ts us : List Test),
    build f q = .ok ts ∧ build g q = .ok us ∧
    ¬ HasResults g us (runAll g us (runAll f ts fun _ => none).1).1 := by
  have hb : ∀ f, (match build f (.configs ["clique".toList]) with
      | .ok _ => true
      | _ => false) = true → build f (.configs ["clique".toList]) =
        .ok (testsOf f (.configs ["clique".toList])) := by
    intro f h
    unfold testsOf
    split at h
    · next ts h' => rw [h']
    · cases h
  refine ⟨{}, { duration := "60".toList }, .configs ["clique".toList], _, _, hb _ (by decide +kernel),
    hb _ (by decide +kernel), ?_⟩
  intro h
  generalize hu : testsOf { duration := "60".toList } (.configs ["clique".toList]) = us at h
  have hus : us.all (fun t =>
      match (runAll { duration := "60".toList } us
        (runAll {} (testsOf {} (.configs ["clique".toList])) fun _ => none).1).1
          (t.name ++ ".pb.gz".toList) with
      | some q => q.find "test_duration".toList != t.params.find "test_duration".toList
      | none => true) = true ∧ us ≠ [] := by
    subst hu
    decide +kernel
  cases us with
  | nil => exact hus.2 rfl
  | cons t rest =>
    obtain ⟨q, h1, h2⟩ := h t List.mem_cons_self
    have := List.all_eq_true.1 hus.1 t List.mem_cons_self
    rw [show (({ duration := "60".toList } : Flags).labelPrefix ++ t.name ++ ".pb.gz".toList) =
      t.name ++ ".pb.gz".toList from rfl] at h1
    rw [h1] at this
    simp only [h2 "test_duration".toList, bne_self_eq_false, Bool.false_eq_true] at this

/-! ### C274: attributes in the text of a test -/

theorem readQuoted_plain {c : Char} (h1 : c ≠ '\'') (h2 : c ≠ '\n') (h3 : c ≠ '\\') (s : Str) :
    readQuoted (c :: s) = (readQuoted s).map (c :: ·) := by
  rw [readQuoted.eq_def]
  split
  · next he => cases he
  · next he => injection he with he; exact absurd he h1
  · next he => injection he with he; exact absurd he h2
  · next he => injection he with he; exact absurd he h3
  · next he => injection he with he; exact absurd he h3
  · next he => injection he with he hs; rw [he, hs]

theorem readQuoted_escape (c : Char) (s : Str) : readQuoted ('\\' :: c :: s) =
    match [('n', '\n'), ('t', '\t'), ('r', '\r'), ('a', Char.ofNat 7), ('b', Char.ofNat 8),
        ('f', Char.ofNat 12), ('v', Char.ofNat 11), ('\\', '\\'), ('\'', '\''), ('"', '"'),
        ('?', '?')].lookup c with
    | some d => (readQuoted s).map (d :: ·)
    | none => none := by
  rw [readQuoted]
  split <;> rename_i h <;> rw [h]

theorem read_quoteBody {t : Str} (h1 : '\\' ∉ t) (h2 : '\n' ∉ t) : readQuoted (quoteBody t) = some t := by
  induction t with
  | nil => rfl
  | cons c t ih =>
    rw [List.mem_cons, not_or] at h1 h2
    have ih := ih h1.2 h2.2
    rw [quoteBody]
    split
    · next hc =>
      subst hc
      rw [readQuoted_escape, ih]
      rfl
    · next hc =>
      rw [readQuoted_plain hc (fun e => h2.1 e.symm) (fun e => h1.1 e.symm), ih]
      rfl

theorem read_shorter : ∀ (n : Nat) (t u : Str), t.length ≤ n → readQuoted (quoteBody t) = some u →
    u.length ≤ t.length ∧ ('\\' ∈ t → u.length < t.length) ∧ '\n' ∉ t := by
  intro n
  induction n with
  | zero =>
    intro t u hl h
    cases t with
    | nil => cases h; simp
    | cons c t => simp at hl
  | succ n ih =>
    intro t u hl h
    cases t with
    | nil => cases h; simp
    | cons c t =>
      rw [List.length_cons] at hl
      rw [quoteBody] at h
      split at h
      · next hc =>
        subst hc
        rw [readQuoted_escape] at h
        change (readQuoted (quoteBody t)).map ('\'' :: ·) = some u at h
        obtain ⟨v, hv, rfl⟩ := Option.map_eq_some_iff.1 h
        obtain ⟨i1, i2, i3⟩ := ih t v (by omega) hv
        refine ⟨by simpa using i1, fun hm => ?_, by simp [i3]⟩
        have := i2 (by simpa using hm)
        simpa using this
      · next hc =>
        by_cases hb : c = '\\'
        · subst hb
          cases t with
          | nil => cases h
          | cons d t =>
            rw [List.length_cons] at hl
            rw [quoteBody] at h
            split at h
            · rw [readQuoted_escape] at h
              change (readQuoted ('\'' :: quoteBody t)).map ('\\' :: ·) = some u at h
              rw [readQuoted] at h
              cases h
            · rw [readQuoted_escape] at h
              split at h
              · next e he =>
                obtain ⟨v, hv, rfl⟩ := Option.map_eq_some_iff.1 h
                obtain ⟨i1, i2, i3⟩ := ih t v (by omega) hv
                refine ⟨?_, fun _ => ?_, ?_⟩
                · simp only [List.length_cons]; omega
                · simp only [List.length_cons]; omega
                · simp only [List.mem_cons, not_or]
                  refine ⟨by decide, ?_, i3⟩
                  rintro rfl
                  rw [show List.lookup '\n' _ = none from by decide] at he
                  cases he
              · cases h
        · by_cases hn : c = '\n'
          · subst hn
            rw [readQuoted] at h
            cases h
          · rw [readQuoted_plain hc hn hb] at h
            obtain ⟨v, hv, rfl⟩ := Option.map_eq_some_iff.1 h
            obtain ⟨i1, i2, i3⟩ := ih t v (by omega) hv
            refine ⟨by simpa using i1, fun hm => ?_, ?_⟩
            · rcases List.mem_cons.1 hm with hm | hm
              · exact absurd hm.symm hb
              · simpa using i2 hm
            · rw [List.mem_cons, not_or]
              exact ⟨fun e => hn e.symm, i3⟩

/-- C274, exactly: an attribute is read as it was given if and only if it has no backslash and no line
break and is not a word that the shell takes as an option of `echo`. -/
theorem C274_quoting_partial (t : Str) : readQuoted (quoted t) = some t ↔
    '\\' ∉ t ∧ '\n' ∉ t ∧
      ¬ ∃ cs : Str, cs ≠ [] ∧ (∀ c ∈ cs, c = 'n' ∨ c = 'e' ∨ c = 'E') ∧ t = '-' :: cs := by
  have hopt : isEchoOption t = true ↔
      ∃ cs : Str, cs ≠ [] ∧ (∀ c ∈ cs, c = 'n' ∨ c = 'e' ∨ c = 'E') ∧ t = '-' :: cs := by
    constructor
    · intro h
      unfold isEchoOption at h
      split at h
      · next c cs =>
        refine ⟨c :: cs, by simp, fun d hd => ?_, rfl⟩
        have := List.all_eq_true.1 h d hd
        simpa [or_assoc] using this
      · cases h
    · rintro ⟨cs, hne, hall, rfl⟩
      cases cs with
      | nil => exact absurd rfl hne
      | cons c cs =>
        rw [isEchoOption, List.all_eq_true]
        intro d hd
        have := hall d hd
        simpa [or_assoc] using this
  rw [← hopt]
  unfold quoted
  constructor
  · intro h
    split at h
    · next ho =>
      cases h
      cases ho
    · next ho =>
      obtain ⟨-, i2, i3⟩ := read_shorter t.length t t (Nat.le_refl _) h
      exact ⟨fun hm => Nat.lt_irrefl _ (i2 hm), i3, ho⟩
  · rintro ⟨h1, h2, h3⟩
    rw [if_neg h3]
    exact read_quoteBody h1 h2

example : readQuoted (quoted "it's 5 'o clock".toList) = some "it's 5 'o clock".toList := by decide +kernel

/-- C274 is false of a path with backslashes, and of the word `-e`. -/
theorem C274_quoting_negation : readQuoted (quoted "C:\\new".toList) = some "C:\new".toList ∧
    readQuoted (quoted "-e".toList) = some [] := by decide +kernel

end Distbench.Builder
