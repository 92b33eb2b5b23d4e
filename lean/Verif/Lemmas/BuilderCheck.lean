import Verif.Lemmas.BuilderLoad
import Verif.Spec.Builder

/-! Lemmas about the test builder: what the set-up of a test does, in full. -/

namespace Distbench.Builder
open Services Tables Spec

/-- The keys of `named`. -/
def nameKeys : List Str := ["traffic_pattern".toList, "traffic_alias".toList, "test_name".toList]

theorem named_shape {p q : Params} {pattern : String} {alias_ suffix : Str}
    (h : named p pattern alias_ suffix = .ok q) : ∃ m, q = p.setAll m ∧ m.map (·.1) = nameKeys := by
  simp only [named, Outcome.bind_ok] at h
  obtain ⟨protocol, -, h⟩ := h
  injection h with h
  exact ⟨_, h.symm, rfl⟩

/-- What the set-up of a traffic pattern does. -/
def Shape (pattern : Str) (p q : Params) : Prop :=
  ∃ text d m exact, p.find "test_duration".toList = some text ∧ arith text = .ok d ∧
    q = (setDefaults (p.set "test_timeout".toList (showInt (wrap64 (d + 120))))
      (documentedDefaults pattern exact)).setAll m ∧
    m.map (·.1) = nameKeys ∧
    (exact = true → ∃ c cs, p.find "exact_size".toList = some (c :: cs)) ∧
    (∀ x ∈ smallest pattern, ∀ v, q.find x.1.toList = some v → v ≠ [] → validateInteger x.2 v = .ok ()) ∧
    (pattern = "rectangular".toList → ∃ x y n, q.find "x_size".toList = some x ∧ q.find "y_size".toList = some y ∧
      product x y = .ok n ∧ validateInteger 2 (showInt n) = .ok ())

theorem shape_of {pattern : Str} {p p1 p2 q : Params} {exact : Bool} {name : String} {alias_ suffix : Str}
    (h1 : withTimeout p = .ok p1) (h2 : p2 = setDefaults p1 (documentedDefaults pattern exact))
    (hx : exact = true → ∃ c cs, p.find "exact_size".toList = some (c :: cs))
    (h : named p2 name alias_ suffix = .ok q)
    (hv : ∀ x ∈ smallest pattern, ∀ v, p2.find x.1.toList = some v → v ≠ [] → validateInteger x.2 v = .ok ())
    (hk : ∀ x ∈ smallest pattern, x.1.toList ∉ nameKeys)
    (hr : pattern = "rectangular".toList → ∃ x y n, p2.find "x_size".toList = some x ∧
      p2.find "y_size".toList = some y ∧ product x y = .ok n ∧ validateInteger 2 (showInt n) = .ok ()) :
    Shape pattern p q := by
  simp only [withTimeout, Outcome.bind_ok] at h1
  obtain ⟨text, g1, d, g2, h1⟩ := h1
  injection h1 with h1
  obtain ⟨m, hq, hm⟩ := named_shape h
  have hfind : ∀ key, key ∉ nameKeys → q.find key = p2.find key := by
    intro key hkey
    rw [hq, find_setAll, lastValue_none.2 (by rw [hm]; exact hkey)]
    rfl
  refine ⟨text, d, m, exact, get_ok.1 g1, g2, by rw [hq, h2, h1], hm, hx, ?_, ?_⟩
  · intro x hxm v hf
    rw [hfind _ (hk x hxm)] at hf
    exact hv x hxm v hf
  · intro hp
    obtain ⟨x, y, n, a, b, c, e⟩ := hr hp
    exact ⟨x, y, n, by rw [hfind _ (by decide)]; exact a, by rw [hfind _ (by decide)]; exact b, c, e⟩

theorem validated {p : Params} {key : String} {v w : Str} {n : Nat} (h : get p key = .ok v)
    (hv : validateInteger n v = .ok ()) (hf : p.find key.toList = some w) : validateInteger n w = .ok () := by
  rw [get_ok.1 h] at hf
  cases hf
  exact hv

theorem patternSetup_shape {pattern : Str} {p q : Params} (h : patternSetup pattern p = .ok q) :
    Shape pattern p q := by
  unfold patternSetup at h
  split at h
  · next hn =>
    subst hn
    simp only [cliqueSetup, Outcome.bind_ok] at h
    obtain ⟨p1, h1, _, -, _, -, iv, g3, nodes, g4, _, -, _, v1, _, v2, _, -, h⟩ := h
    refine shape_of (exact := false) h1 rfl (by simp) h ?_ (by decide) (fun hp => absurd hp (by decide))
    intro x hx v hv _
    simp only [smallest, if_true, List.mem_cons, List.not_mem_nil, or_false] at hx
    rcases hx with rfl | rfl
    · exact validated g3 v1 hv
    · exact validated g4 v2 hv
  split at h
  · next hn =>
    subst hn
    simp only [rectangularSetup, Outcome.bind_ok] at h
    obtain ⟨p1, h1, _, -, _, -, iv, g3, xt, gx, yt, gy, n, gn, _, -, _, -, _, v1, _, v2, _, -, _, -, h⟩ := h
    refine shape_of (exact := false) h1 rfl (by simp) h ?_ (by decide)
      (fun _ => ⟨xt, yt, n, get_ok.1 gx, get_ok.1 gy, gn, v2⟩)
    intro x hx v hv _
    rw [smallest, if_neg (by decide), if_pos rfl] at hx
    rw [List.mem_singleton.1 hx] at hv ⊢
    exact validated g3 v1 hv
  split at h
  · next hn =>
    subst hn
    simp only [clientServerSetup, Outcome.bind_ok] at h
    obtain ⟨p1, h1, _, g1, _, g2, _, g3, _, v1, _, v2, _, v3, h⟩ := h
    refine shape_of (exact := false) h1 rfl (by simp) h ?_ (by decide) (fun hp => absurd hp (by decide))
    intro x hx v hv _
    rw [smallest, if_neg (by decide), if_neg (by decide), if_pos rfl] at hx
    simp only [List.mem_cons, List.not_mem_nil, or_false] at hx
    rcases hx with rfl | rfl | rfl
    · exact validated g1 v1 hv
    · exact validated g2 v2 hv
    · exact validated g3 v3 hv
  split at h
  · next hn =>
    subst hn
    simp only [tripartiteSetup, Outcome.bind_ok] at h
    obtain ⟨p1, h1, _, g1, _, g2, _, g3, _, v1, _, v2, _, v3, h⟩ := h
    refine shape_of (exact := false) h1 rfl (by simp) h ?_ (by decide) (fun hp => absurd hp (by decide))
    intro x hx v hv _
    rw [smallest, if_neg (by decide), if_neg (by decide), if_neg (by decide), if_pos rfl] at hx
    simp only [List.mem_cons, List.not_mem_nil, or_false] at hx
    rcases hx with rfl | rfl | rfl
    · exact validated g1 v1 hv
    · exact validated g2 v2 hv
    · exact validated g3 v3 hv
  split at h
  · next hn =>
    subst hn
    simp only [multiLevelSetup, Outcome.bind_ok] at h
    obtain ⟨p1, h1, _, g1, _, g2, _, g3, _, v1, _, v2, _, v3, _, -, h⟩ := h
    refine shape_of (exact := false) h1 rfl (by simp) h ?_ (by decide) (fun hp => absurd hp (by decide))
    intro x hx v hv _
    rw [smallest, if_neg (by decide), if_neg (by decide), if_neg (by decide), if_neg (by decide), if_pos rfl] at hx
    simp only [List.mem_cons, List.not_mem_nil, or_false] at hx
    rcases hx with rfl | rfl | rfl
    · exact validated g1 v1 hv
    · exact validated g2 v2 hv
    · exact validated g3 v3 hv
  split at h
  · next hn =>
    subst hn
    simp only [variableSetup, Outcome.bind_ok] at h
    obtain ⟨p1, h1, ⟨p2, lower, upper⟩, h2, _, g1, _, g2, _, g3, _, v1, _, v2, _, v3, _, v4, _, v5, _, -, h⟩ := h
    have hs : ∃ exact, p2 = setDefaults p1 (documentedDefaults "variable_response_multi_level_rpc".toList exact) ∧
        (exact = true → ∃ c cs, p.find "exact_size".toList = some (c :: cs)) ∧
        (∀ v, p2.find "lower_size".toList = some v → v = lower) ∧
        (∀ v, p2.find "upper_size".toList = some v → v = upper) ∧
        (∀ v, p2.find "exact_size".toList = some v → v ≠ [] → v = lower) := by
      have hex : (setDefaults p1 multiLevelDefaults).find "exact_size".toList = p.find "exact_size".toList := by
        rw [find_setDefaults_other (by decide)]
        simp only [withTimeout, Outcome.bind_ok] at h1
        obtain ⟨_, -, _, -, h1⟩ := h1
        injection h1 with h1
        rw [← h1, find_set, if_neg (by decide)]
      unfold responseSizes at h2
      split at h2
      · next c cs he =>
        split at h2
        · cases h2
        · next hno =>
          cases h2
          rw [not_or] at hno
          refine ⟨true, rfl, fun _ => ⟨c, cs, hex ▸ he⟩, ?_, ?_, ?_⟩
          · intro v hv; rw [hv] at hno; exact absurd rfl hno.1
          · intro v hv; rw [hv] at hno; exact absurd rfl hno.2
          · intro v hv _; rw [he] at hv; cases hv; rfl
      · next hne =>
        simp only [Outcome.bind_ok] at h2
        obtain ⟨a, ga, b, gb, h2⟩ := h2
        injection h2 with h2
        cases h2
        refine ⟨false, ?_, by simp, ?_, ?_, ?_⟩
        · rw [← setDefaults_append]; rfl
        · intro v hv; rw [get_ok.1 ga] at hv; cases hv; rfl
        · intro v hv; rw [get_ok.1 gb] at hv; cases hv; rfl
        · intro v hv hv0
          rw [find_setDefaults_other (by decide)] at hv
          cases v with
          | nil => exact absurd rfl hv0
          | cons c cs => exact absurd hv (hne c cs)
    obtain ⟨exact, hd, hx, hlo, hup, hexact⟩ := hs
    refine shape_of (exact := exact) h1 hd hx h ?_ (by decide) (fun hp => absurd hp (by decide))
    intro x hx v hv hv0
    rw [smallest, if_neg (by decide), if_neg (by decide), if_neg (by decide), if_neg (by decide),
      if_neg (by decide)] at hx
    simp only [List.mem_cons, List.not_mem_nil, or_false] at hx
    rcases hx with rfl | rfl | rfl | rfl | rfl | rfl
    · exact validated g1 v1 hv
    · exact validated g2 v2 hv
    · exact validated g3 v3 hv
    · rw [hlo v hv]; exact v4
    · rw [hup v hv]; exact v5
    · rw [hexact v hv hv0]; exact v4
  · cases h

/-- What the set-up of a protocol driver does. -/
theorem protocolSetup_shape {p q : Params} (h : protocolSetup p = .ok q) :
    (∃ m, q = (setDefaults p (driverDefaults (protocolUsed p))).setAll m ∧ ∀ k ∈ m.map (·.1), k ∈ protocolOwn) ∧
    (protocolUsed p = "homa".toList → ∀ key ∈ ["client_threads", "server_threads"], ∃ v,
      q.find key.toList = some v ∧ validateInteger 1 v = .ok ()) := by
  rw [protocolSetup_eq] at h
  split at h
  · next hn =>
    simp only [grpcSetup, Outcome.bind_ok] at h
    obtain ⟨_, -, _, -, _, -, h⟩ := h
    injection h with h
    rw [hn]
    rw [driverDefaults, if_pos rfl]
    exact ⟨⟨_, h.symm, (by
      intro k hk
      simp only [List.map_cons, List.map_nil] at hk
      revert k
      decide)⟩, fun hp => absurd hp (by decide)⟩
  split at h
  · next hn =>
    simp only [mercurySetup, Outcome.bind_ok] at h
    obtain ⟨_, -, _, -, h⟩ := h
    injection h with h
    rw [hn]
    rw [driverDefaults, if_neg (by decide), if_pos rfl]
    exact ⟨⟨_, h.symm, (by
      intro k hk
      simp only [List.map_cons, List.map_nil] at hk
      revert k
      decide)⟩, fun hp => absurd hp (by decide)⟩
  split at h
  · next hn =>
    simp only [homaSetup, Outcome.bind_ok] at h
    obtain ⟨_, -, _, g1, _, g2, _, -, _, -, _, v1, _, v2, _, -, _, -, _, -, h⟩ := h
    injection h with h
    rw [hn]
    rw [driverDefaults, if_neg (by decide), if_neg (by decide)]
    refine ⟨⟨_, h.symm, (by
      intro k hk
      simp only [List.map_cons, List.map_nil] at hk
      revert k
      decide)⟩, fun _ key hk => ?_⟩
    have hkeep : ∀ key : String, key.toList ∉ protocolOwn → ∀ v, (setDefaults p [("threadpool_type", ""),
        ("threadpool_size", "0"), ("client_threads", "1"), ("server_threads", "1"), ("nocopy", "1"),
        ("ping_pong", "0")]).find key.toList = some v → q.find key.toList = some v := by
      intro key hk v hv
      rw [← h]
      refine keeps_setAll (own := protocolOwn) ?_ _ hk v hv
      intro x hx
      simp only [List.mem_cons, List.not_mem_nil, or_false] at hx
      rcases hx with rfl | rfl
      · exact .tail _ (.head _)
      · exact .head _
    simp only [List.mem_cons, List.not_mem_nil, or_false] at hk
    rcases hk with rfl | rfl
    · exact ⟨_, hkeep _ (by decide) _ (get_ok.1 g1), v1⟩
    · exact ⟨_, hkeep _ (by decide) _ (get_ok.1 g2), v2⟩
  · cases h

/-! ### parameters of patterns and of drivers -/

/-- The parameters of patterns. -/
def patternKeys : List String :=
  ["rpc_interval_us", "node_count", "synchronization_mode", "request_size", "response_size", "x_size", "y_size",
   "fanout_filter", "tracing_interval", "parallel_queries", "client_count", "server_count", "index_count",
   "data_count", "qps", "root_count", "leaf_count", "lower_size", "upper_size"]

/-- The parameters of drivers. -/
def driverKeys : List String :=
  ["client_type", "server_type", "threadpool_type", "threadpool_size", "transport", "client_threads",
   "server_threads", "nocopy", "ping_pong"]

theorem pattern_facts (pattern : Str) (exact : Bool) :
    (∀ x ∈ documentedDefaults pattern exact, x.1 ∈ patternKeys) ∧
    ((documentedDefaults pattern exact).map (·.1)).Nodup := by
  unfold documentedDefaults
  split
  · decide
  split
  · decide
  split
  · decide
  split
  · decide
  split
  · decide
  · cases exact <;> decide

theorem defaults_fewer {pattern : Str} {exact : Bool} : ∀ x ∈ documentedDefaults pattern exact,
    x ∈ documentedDefaults pattern false := by
  cases exact with
  | false => exact fun x hx => hx
  | true =>
    intro x
    unfold documentedDefaults
    by_cases h1 : pattern = "clique".toList
    · rw [if_pos h1, if_pos h1]; exact id
    rw [if_neg h1, if_neg h1]
    by_cases h2 : pattern = "rectangular".toList
    · rw [if_pos h2, if_pos h2]; exact id
    rw [if_neg h2, if_neg h2]
    by_cases h3 : pattern = "client_server".toList
    · rw [if_pos h3, if_pos h3]; exact id
    rw [if_neg h3, if_neg h3]
    by_cases h4 : pattern = "tripartite".toList
    · rw [if_pos h4, if_pos h4]; exact id
    rw [if_neg h4, if_neg h4]
    by_cases h5 : pattern = "multi_level_rpc".toList
    · rw [if_pos h5, if_pos h5]; exact id
    rw [if_neg h5, if_neg h5, if_pos rfl, List.append_nil]
    exact List.mem_append_left _

theorem driver_facts (driver : Str) :
    (∀ x ∈ driverDefaults driver, x.1 ∈ driverKeys) ∧ ((driverDefaults driver).map (·.1)).Nodup := by
  unfold driverDefaults
  split
  · decide
  split
  · decide
  · decide

theorem pattern_key : ∀ k ∈ patternKeys, k.toList ∉ nameKeys ∧ "test_timeout".toList ≠ k.toList ∧
    k.toList ∉ protocolOwn ∧ ∀ d ∈ driverKeys, d.toList ≠ k.toList := by decide

theorem driver_key : ∀ k ∈ driverKeys, k.toList ∉ nameKeys ∧ "test_timeout".toList ≠ k.toList ∧
    k.toList ∉ protocolOwn ∧ ∀ d ∈ patternKeys, d.toList ≠ k.toList := by decide

theorem find_setAll_other {p : Params} {m : List (Str × Str)} {key : Str} (h : key ∉ m.map (·.1)) :
    (p.setAll m).find key = p.find key := by
  rw [find_setAll, lastValue_none.2 h]
  rfl

/-- What the set-up of a test does to the parameters. -/
theorem finish_values {p q : Params} (h : finish p = .ok q) :
    ∃ pattern exact, p.find "traffic_pattern".toList = some pattern ∧
      (exact = true → ∃ c cs, p.find "exact_size".toList = some (c :: cs)) ∧
      ∀ x ∈ documentedDefaults pattern exact ++ driverDefaults (protocolUsed p), x.2 ≠ "" →
        q.find x.1.toList = some ((p.find x.1.toList).getD x.2.toList) := by
  simp only [finish, Outcome.bind_ok] at h
  obtain ⟨pattern, h1, p1, h2, h3⟩ := h
  obtain ⟨⟨m1, e1, hm1⟩, -⟩ := protocolSetup_shape h2
  obtain ⟨text, d, m2, exact, -, -, e2, hm2, hx, -, -⟩ := patternSetup_shape h3
  have hfirst : ∀ key : Str, key ∉ protocolOwn →
      p1.find key = (setDefaults p (driverDefaults (protocolUsed p))).find key := by
    intro key hk
    rw [e1, find_setAll_other fun hm => hk (hm1 key hm)]
  have hother : ∀ key : Str, key ∉ protocolOwn → (∀ d ∈ driverKeys, d.toList ≠ key) →
      p1.find key = p.find key := by
    intro key hk hd
    rw [hfirst key hk, find_setDefaults_other fun x hx => hd _ ((driver_facts _).1 x hx)]
  refine ⟨pattern, exact, get_ok.1 h1, ?_, ?_⟩
  · intro he
    rw [← hother _ (by decide) (by decide)]
    exact hx he
  · intro x hx hv
    rcases List.mem_append.1 hx with hm | hm
    · obtain ⟨k1, k2, k3, k4⟩ := pattern_key _ ((pattern_facts pattern exact).1 x hm)
      rw [e2, find_setAll_other (by rw [hm2]; exact k1),
        find_setDefaults (k := x.1) (v := x.2) hm (pattern_facts pattern exact).2 hv, find_set, if_neg k2,
        hother _ k3 k4]
    · obtain ⟨k1, k2, k3, k4⟩ := driver_key _ ((driver_facts _).1 x hm)
      rw [e2, find_setAll_other (by rw [hm2]; exact k1),
        find_setDefaults_other fun y hy => k4 _ ((pattern_facts pattern exact).1 y hy), find_set, if_neg k2,
        hfirst _ k3, find_setDefaults (k := x.1) (v := x.2) hm (driver_facts _).2 hv]

/-- What the set-up of a test checks. -/
theorem finish_checks {p q : Params} (h : finish p = .ok q) :
    ∃ pattern, q.find "traffic_pattern".toList = some pattern ∧
      (∀ x ∈ smallest pattern, ∀ v, q.find x.1.toList = some v → v ≠ [] → validateInteger x.2 v = .ok ()) ∧
      (pattern = "rectangular".toList → ∃ x y n, q.find "x_size".toList = some x ∧
        q.find "y_size".toList = some y ∧ product x y = .ok n ∧ validateInteger 2 (showInt n) = .ok ()) ∧
      (q.find "protocol_driver".toList = some "homa".toList → ∀ key ∈ ["client_threads", "server_threads"], ∃ v,
        q.find key.toList = some v ∧ validateInteger 1 v = .ok ()) ∧
      ∃ text d, q.find "test_duration".toList = some text ∧ arith text = .ok d ∧
        q.find "test_timeout".toList = some (showInt (wrap64 (d + 120))) := by
  obtain ⟨hkeep, hdriver, pattern, hp, hq⟩ := finish_ok h
  simp only [finish, Outcome.bind_ok] at h
  obtain ⟨pattern', h1, p1, h2, h3⟩ := h
  rw [get_ok.1 h1] at hp
  cases hp
  obtain ⟨-, hhoma⟩ := protocolSetup_shape h2
  obtain ⟨k2, -⟩ := patternSetup_ok h3
  obtain ⟨text, d, m2, exact, ht, hd, e2, hm2, -, hv, hr⟩ := patternSetup_shape h3
  refine ⟨pattern, hq, hv, hr, ?_, text, d, k2 _ (by decide) _ ht, hd, ?_⟩
  · intro he key hk
    rw [hdriver] at he
    obtain ⟨v, h4, h5⟩ := hhoma (Option.some.inj he) key hk
    exact ⟨v, k2 _ ((by decide : ∀ k ∈ ["client_threads", "server_threads"], k.toList ∉ patternOwn) key hk) _ h4, h5⟩
  · rw [e2, find_setAll_other (by rw [hm2]; decide), find_setDefaults_other fun x hx he =>
      (pattern_key _ ((pattern_facts pattern exact).1 x hx)).2.1 he.symm, find_set, if_pos rfl]

end Distbench.Builder
