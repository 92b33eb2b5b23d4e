import Verif.Lemmas.Whole

/-! Lemmas for Props/Whole.lean: the choice of targets, and what the entries of action lists say. -/

namespace Distbench.Whole
open Tables Services Fanout Spec

/-! ### Entries of lists -/

/-- What the tables say about the action at a place of a list. -/
theorem entry_at {e : Env} {w : Test} (hs : SoundTest e w) {l a : Nat} {x : ActionEntry}
    (hx : (actionsOf (w.tables 0) l)[a]? = some x) :
    ∃ al, w.cfg.actionLists[l]? = some al ∧ al.actionNames[a]? = some x.proto.name ∧
      x.proto ∈ w.cfg.actions ∧
      (∀ d ∈ x.dependentActionIndices, 0 ≤ d ∧ d < a) ∧
      (∀ n, x.proto.kind = .rpc n → ∃ (k i : Nat) (r : RpcSpec) (sv : ServiceSpec), x.rpcIndex = k ∧
        x.rpcServiceIndex = i ∧ w.cfg.rpcs[k]? = some r ∧ r.name = n ∧ w.cfg.services[i]? = some sv ∧
        sv.name = r.server) ∧
      (∀ n, x.proto.kind = .actionList n → ∃ (k : Nat) (al' : ActionList), x.actionlistIndex = k ∧
        w.cfg.actionLists[k]? = some al' ∧ al'.name = n) := by
  obtain ⟨s0, h0⟩ := first_service hs
  have ht := hs.tables 0 s0 h0
  unfold actionsOf at hx
  cases hl : (w.tables 0).actionLists[l]? with
  | none => rw [hl] at hx; cases hx
  | some entry =>
    rw [hl] at hx
    simp only [Option.map_some, Option.getD_some] at hx
    have hlt : l < w.cfg.actionLists.length := by
      have := (List.getElem?_eq_some_iff.1 hl).1
      have := lists_length ht
      omega
    have hal := List.getElem?_eq_getElem hlt
    obtain ⟨entry', g1, g2, g3, g4⟩ := C28_accepted _ _ _ _ ht l _ hal
    rw [hl] at g1
    cases g1
    have hlt2 : a < w.cfg.actionLists[l].actionNames.length := by
      have := (List.getElem?_eq_some_iff.1 hx).1
      omega
    have hn := List.getElem?_eq_getElem hlt2
    obtain ⟨x', k1, k2, k3, k4, k5, k6⟩ := g4 a _ hn
    rw [hx] at k1
    cases k1
    obtain ⟨t1, t2, -, -⟩ := C28_targets _ _ _ _ hs.distinct ht l _ hal entry hl a x hx
    refine ⟨_, hal, ?_, k2, ?_, ?_, ?_⟩
    · rw [hn, k3]
    · intro d hd
      obtain ⟨m, hm⟩ := List.getElem?_of_mem hd
      have hm2 : m < x.proto.dependencies.length := by
        have := (List.getElem?_eq_some_iff.1 hm).1
        omega
      obtain ⟨v, hv1, hv2, -⟩ := k6 m _ (List.getElem?_eq_getElem hm2)
      rw [hm] at hv1
      cases hv1
      omega
    · intro n hk
      obtain ⟨k, i, q1, q2, r, q3, q4, sv, q5, q6⟩ := t1 n hk
      exact ⟨k, i, r, sv, q1, q2, q3, q4, q5, q6⟩
    · intro n hk
      obtain ⟨k, q1, al', q2, q3⟩ := t2 n hk
      exact ⟨k, al', q1, q2, q3⟩

theorem unused_at {e : Env} {w : Test} (hs : SoundTest e w) {l : Nat} {x : ActionEntry}
    (hx : x ∈ actionsOf (w.tables 0) l) :
    ((∀ n, x.proto.kind ≠ .rpc n) → x.rpcServiceIndex = -1) ∧
    ((∀ n, x.proto.kind ≠ .actionList n) → x.actionlistIndex = -1) ∧
    ((∀ n, x.proto.kind ≠ .replay n) → x.rpcReplayTraceIndex = -1) := by
  obtain ⟨s0, h0⟩ := first_service hs
  exact unused_indices (hs.tables 0 s0 h0) hx

theorem work_rpc {e : Env} {w : Test} (hs : SoundTest e w) {l a : Nat} {x : ActionEntry}
    (hx : (actionsOf (w.tables 0) l)[a]? = some x) {n : Str} (hk : x.proto.kind = .rpc n) (fan : Nat → Nat) :
    toWork fan x = .rpc x.rpcIndex.toNat (fan x.rpcIndex.toNat) := by
  obtain ⟨-, u2, u3⟩ := unused_at hs (List.mem_of_getElem? hx)
  obtain ⟨al, -, -, -, -, h5, -⟩ := entry_at hs hx
  obtain ⟨k, i, r, sv, -, hi, -⟩ := h5 n hk
  have h2 := u2 (fun m h => by rw [hk] at h; cases h)
  have h3 := u3 (fun m h => by rw [hk] at h; cases h)
  unfold toWork
  rw [if_neg (by omega), if_neg (by omega), if_pos (by omega)]

theorem work_list {e : Env} {w : Test} (hs : SoundTest e w) {l a : Nat} {x : ActionEntry}
    (hx : (actionsOf (w.tables 0) l)[a]? = some x) {n : Str} (hk : x.proto.kind = .actionList n)
    (fan : Nat → Nat) : toWork fan x = .list x.actionlistIndex.toNat := by
  obtain ⟨-, -, u3⟩ := unused_at hs (List.mem_of_getElem? hx)
  obtain ⟨al, -, -, -, -, -, h6⟩ := entry_at hs hx
  obtain ⟨k, al', hi, -⟩ := h6 n hk
  have h3 := u3 (fun m h => by rw [hk] at h; cases h)
  unfold toWork
  rw [if_neg (by omega), if_pos (by omega)]

theorem work_other {e : Env} {w : Test} (hs : SoundTest e w) {l a : Nat} {x : ActionEntry}
    (hx : (actionsOf (w.tables 0) l)[a]? = some x) (h1 : ∀ n, x.proto.kind ≠ .rpc n)
    (h2 : ∀ n, x.proto.kind ≠ .actionList n) (fan : Nat → Nat) : toWork fan x = .other := by
  obtain ⟨u1, u2, -⟩ := unused_at hs (List.mem_of_getElem? hx)
  have h1 := u1 h1
  have h2 := u2 h2
  unfold toWork
  rw [if_neg (c := 0 ≤ x.actionlistIndex) (by omega), if_neg (c := 0 ≤ x.rpcServiceIndex) (by omega)]
  split <;> rfl

/-- An entry whose work is an RPC is that of an action with this RPC. -/
theorem rpc_work {e : Env} {w : Test} (hs : SoundTest e w) {l a : Nat} {x : ActionEntry}
    (hx : (actionsOf (w.tables 0) l)[a]? = some x) {fan : Nat → Nat} {q k : Nat}
    (hw : toWork fan x = .rpc q k) :
    ∃ (i : Nat) (r : RpcSpec) (sv : ServiceSpec), x.proto.kind = .rpc r.name ∧ x.rpcIndex = q ∧
      x.rpcServiceIndex = i ∧ w.cfg.rpcs[q]? = some r ∧ w.cfg.services[i]? = some sv ∧ sv.name = r.server ∧
      k = fan q := by
  cases hk : x.proto.kind with
  | rpc n =>
    rw [work_rpc hs hx hk] at hw
    cases hw
    obtain ⟨al, -, -, -, -, h5, -⟩ := entry_at hs hx
    obtain ⟨k, i, r, sv, h1, h2, h3, h4, h6, h7⟩ := h5 n hk
    rw [h1, Int.toNat_natCast]
    exact ⟨i, r, sv, by rw [h4], rfl, h2, h3, h6, h7, rfl⟩
  | actionList n => rw [work_list hs hx hk] at hw; cases hw
  | none => rw [work_other hs hx (by rw [hk]; simp) (by rw [hk]; simp)] at hw; cases hw
  | activity n => rw [work_other hs hx (by rw [hk]; simp) (by rw [hk]; simp)] at hw; cases hw
  | replay n => rw [work_other hs hx (by rw [hk]; simp) (by rw [hk]; simp)] at hw; cases hw

/-! ### Targets -/

/-- The choice of targets meets the conditions of the properties about it. -/
theorem context_valid {e : Env} {w : Test} (hs : SoundTest e w) {eng i k : Nat} {place : Nat × Nat}
    {own sv : ServiceSpec} {grid : GridIndex} {x : ActionEntry} {r : RpcEntry} {d : Draws}
    (hp : (places w.cfg)[eng]? = some place) (ho : w.cfg.services[place.1]? = some own)
    (hg : getServiceIndex own place.2 = some grid) (hi : x.rpcServiceIndex = i)
    (hk : r.serviceIndex = k) (hik : i = k) (hsv : w.cfg.services[k]? = some sv)
    (hd : r.definition.serverSpec = sv) (hf : d.Fair) (hn : 0 < serverCount w.cfg x.rpcServiceIndex) :
    Valid (context w.cfg place grid x r d) ∧
      (context w.cfg place grid x r d).numServers = sv.count.getD 0 := by
  subst hik
  obtain ⟨s', hs', hlt⟩ := mem_places.1 (List.mem_of_getElem? hp)
  rw [ho] at hs'
  cases hs'
  have hcanon : ∀ s ∈ w.cfg.services, Canon s := by
    intro s hsm
    obtain ⟨raw, h1, h2⟩ := hs.services s hsm
    exact canon_of_ok h1 h2
  have co := hcanon own (List.mem_of_getElem? ho)
  have cs := hcanon sv (List.mem_of_getElem? hsv)
  have hnum : serverCount w.cfg x.rpcServiceIndex = sv.count.getD 0 := by
    unfold serverCount
    rw [hi, Int.toNat_natCast, hsv]
    rfl
  have hat : At own grid place.2 := (at_iff co).2 ⟨by omega, by omega, hg⟩
  refine ⟨⟨?_, ?_, ?_, ?_, ?_, hf.1, hf.2.1, hf.2.2⟩, hnum⟩
  · show ∃ raw, FieldsFit raw ∧ getCanonicalServiceSpec raw = .ok r.definition.serverSpec
    rw [hd]
    exact hs.services sv (List.mem_of_getElem? hsv)
  · show serverCount w.cfg x.rpcServiceIndex = r.definition.serverSpec.count.getD 0
    rw [hd, hnum]
  · show 1 ≤ serverCount w.cfg x.rpcServiceIndex
    omega
  · intro he
    have he : x.rpcServiceIndex = place.1 := by simpa [context] using he
    show At r.definition.serverSpec grid place.2
    rw [hd]
    have : i = place.1 := by omega
    subst this
    rw [ho] at hsv
    cases hsv
    exact hat
  · have := hat.1
    unfold InGrid at this
    exact ⟨this.1, this.2.2.1, this.2.2.2.2.1⟩

theorem all_length {c : Ctx} (hv : Valid c) (hf : c.parsed.filter = .grid false false false) :
    ∃ ts, pickRpcFanoutTargets c = some ts ∧ (∀ t ∈ ts, Eligible c t) ∧ ts.length = eligibleCount c := by
  have hs := hv.some_server
  obtain ⟨ts, h1, h2, h3⟩ := C21_all_once c hv hf
  refine ⟨ts, h1, fun t ht => (h3 t).1 ht, ?_⟩
  unfold eligibleCount
  by_cases he : c.excludeSelf = true
  · obtain ⟨a, b⟩ := self_of_valid hv he
    rw [C21_order c hv hf he] at h1
    injection h1 with h1
    rw [← h1, if_pos he, List.length_append]
    simp only [intRange, List.length_map, List.length_range]
    omega
  · rw [if_neg he]
    have hp : ts.Perm (intRange 0 c.numServers) := by
      refine (List.perm_ext_iff_of_nodup h2 (nodup_intRange _ _)).2 fun t => ?_
      rw [h3, mem_intRange]
      exact ⟨fun h => ⟨h.1, h.2.1⟩, fun h => ⟨h.1, h.2, fun h' => absurd h' he⟩⟩
    rw [hp.length_eq]
    simp [intRange]

/-- Filters that choose one instance. -/
theorem pick_one {c : Ctx} (hv : Valid c) (hf : c.parsed.filter = .randomSingle ∨ c.parsed.filter = .roundRobin)
    (h1 : ¬ (c.excludeSelf = true ∧ c.numServers = 1)) :
    ∃ t, pickRpcFanoutTargets c = some [t] ∧ Eligible c t := by
  have hs := hv.some_server
  rcases hf with hf | hf
  · by_cases he : c.excludeSelf = true
    · obtain ⟨a, b⟩ := self_of_valid hv he
      have hne : c.numServers ≠ 1 := fun h => h1 ⟨he, h⟩
      obtain ⟨d1, d2⟩ := hv.draw (c.numServers - 2) (by omega)
      have := skip_spec a b d1 (by omega)
      refine ⟨skip c.numServers c.instance_ (c.draw (c.numServers - 2)), pick_single hv h1 ?_ fun _ => this.2.2,
        this.1, this.2.1, fun _ => this.2.2⟩
      unfold rawTargets
      rw [hf]
      dsimp only
      rw [if_pos he]
      rfl
    · obtain ⟨d1, d2⟩ := hv.draw (c.numServers - 1) (by omega)
      refine ⟨c.draw (c.numServers - 1), pick_single hv h1 ?_ fun h => absurd h he, d1, by omega,
        fun h => absurd h he⟩
      unfold rawTargets
      rw [hf]
      dsimp only
      rw [if_neg he]
  · refine ⟨_, roundRobin_target c hv hf h1, ?_⟩
    have hcn := hv.counter
    by_cases he : c.excludeSelf = true
    · obtain ⟨a, b⟩ := self_of_valid hv he
      have hne : c.numServers ≠ 1 := fun h => h1 ⟨he, h⟩
      rw [if_pos he]
      have := skip_spec a b (Int.emod_nonneg c.counter (b := c.numServers - 1) (by omega))
        (Int.emod_lt_of_pos _ (by omega))
      exact ⟨this.1, this.2.1, fun _ => this.2.2⟩
    · rw [if_neg he]
      exact ⟨Int.emod_nonneg _ (by omega), Int.emod_lt_of_pos _ (by omega), fun h => absurd h he⟩

/-- The filters of `FanOut`, and the number of instances that they choose. -/
theorem fanOut_length {cfg : Config} {r : RpcSpec} {k : Nat} {c : Ctx} {atof : Str → Option Rat}
    {own sv : ServiceSpec} (hv : Valid c) (hfan : FanOut cfg r k)
    (hfilter : initializeRpcFanoutFilter atof r.fanoutFilter = .ok c.parsed)
    (hsv : ∀ s ∈ cfg.services, s.name = r.server → s = sv) (hn : c.numServers = sv.count.getD 0)
    (hself : c.excludeSelf = true ↔ own.name = r.server) (hclient : own.name ∈ r.client) :
    ∃ ts, pickRpcFanoutTargets c = some ts ∧ (∀ t ∈ ts, Eligible c t) ∧ ts.length = k := by
  obtain ⟨s, hs1, hs2, hs3, hcase⟩ := hfan
  obtain rfl := hsv s hs1 hs2
  rcases hcase with ⟨hf, hk⟩ | ⟨hf, hk, rfl⟩
  · have hff : c.parsed.filter = .grid false false false := by
      simp only [List.mem_cons, List.not_mem_nil, or_false] at hf
      rcases hf with hf | hf <;> rw [hf] at hfilter <;> injection hfilter with hfilter <;> rw [← hfilter]
    obtain ⟨ts, h1, h2, h3⟩ := all_length hv hff
    refine ⟨ts, h1, h2, ?_⟩
    rw [h3, eligibleCount, hn]
    rcases hk with ⟨hk, hk2⟩ | ⟨hk, hk2⟩
    · rw [if_neg, hk2]
      intro he
      rw [hself.1 he] at hclient
      exact hk hclient
    · rw [if_pos (hself.2 (hk _ hclient))]
      omega
  · have hff : c.parsed.filter = .randomSingle ∨ c.parsed.filter = .roundRobin := by
      simp only [List.mem_cons, List.not_mem_nil, or_false] at hf
      rcases hf with hf | hf | hf <;> rw [hf] at hfilter <;> injection hfilter with hfilter <;>
        rw [← hfilter]
      · exact .inl rfl
      · exact .inl rfl
      · exact .inr rfl
    obtain ⟨t, h1, h2⟩ := pick_one hv hff (by
      rintro ⟨he, h1⟩
      rcases hk with hk | hk
      · rw [hself.1 he] at hclient
        exact hk hclient
      · omega)
    exact ⟨[t], h1, fun u hu => by rw [List.mem_singleton.1 hu]; exact h2, rfl⟩

/-- The targets that an engine chooses. -/
theorem picks_spec {e : Env} {w : Test} (hs : SoundTest e w) {eng i q k : Nat} {x : ActionEntry} {r : RpcSpec}
    {sv : ServiceSpec} {targets : List Nat} (hq : x.rpcIndex = q) (hi : x.rpcServiceIndex = i)
    (hr : w.cfg.rpcs[q]? = some r) (hsv : w.cfg.services[i]? = some sv) (hn : sv.name = r.server)
    (hfan : FanOut w.cfg r k) (hp : Picks w eng x targets) :
    targets.length = k ∧ ∀ t ∈ targets, serviceOf w.cfg t = some i := by
  obtain ⟨place, own, grid, re, d, ts, h1, h2, h3, h4, h5, h6, h7, h8, h9, h10⟩ := hp
  rw [hq, Int.toNat_natCast] at h4
  obtain ⟨spec, a1, a2, a3, a4, ⟨k', sv', a5, a6, a7, a8⟩, a9, -⟩ := rpc_entry hs h2 h4
  rw [hr] at a1
  cases a1
  have hik := names_inj hs.distinct.services hsv a6 (hn.trans a7.symm)
  subst hik
  rw [hsv] at a6
  cases a6
  obtain ⟨hv, hnum⟩ := context_valid hs h1 h2 h3 hi a5 rfl hsv a8 h7 h6
  obtain ⟨ts', g1, g2, g3⟩ := fanOut_length (own := own) (sv := sv) hv hfan a9 (by
      intro s hsm hsn
      obtain ⟨m, hm⟩ := List.getElem?_of_mem hsm
      have := names_inj hs.distinct.services hm hsv (hsn.trans hn.symm)
      subst this
      rw [hm] at hsv
      cases hsv
      rfl) hnum (by
      show decide (x.rpcServiceIndex = place.1) = true ↔ _
      rw [decide_eq_true_eq]
      constructor
      · intro he
        have : i = place.1 := by omega
        subst this
        rw [h2] at hsv
        cases hsv
        exact hn
      · intro he
        have := names_inj hs.distinct.services h2 hsv (he.trans hn.symm)
        rw [hi, this]) (a4.1 h5)
  rw [h8] at g1
  cases g1
  constructor
  · have := congrArg List.length h10
    rw [List.length_map, List.length_map] at this
    omega
  · intro t ht
    have : some t ∈ ts.map (fun t => engineAt w.cfg x.rpcServiceIndex.toNat t.toNat) := by
      rw [h10]
      exact List.mem_map.2 ⟨t, ht, rfl⟩
    obtain ⟨u, hu, hut⟩ := List.mem_map.1 this
    rw [hi, Int.toNat_natCast] at hut
    exact serviceOf_some.2 ⟨_, engineAt_place hut⟩

theorem map_some_exists {α β : Type} {f : α → Option β} {l : List α} (h : ∀ x ∈ l, ∃ y, f x = some y) :
    ∃ m : List β, l.map f = m.map some := by
  induction l with
  | nil => exact ⟨[], rfl⟩
  | cons a l ih =>
    obtain ⟨y, hy⟩ := h a List.mem_cons_self
    obtain ⟨m, hm⟩ := ih fun x hx => h x (List.mem_cons_of_mem _ hx)
    exact ⟨y :: m, by rw [List.map_cons, List.map_cons, hy, hm]⟩

/-- An engine that may make an RPC can choose targets. -/
theorem picks_exists {e : Env} {w : Test} (hs : SoundTest e w) {eng i q k : Nat} {x : ActionEntry} {r : RpcSpec}
    {sv : ServiceSpec} {place : Nat × Nat} {own : ServiceSpec} (hq : x.rpcIndex = q) (hi : x.rpcServiceIndex = i)
    (hr : w.cfg.rpcs[q]? = some r) (hsv : w.cfg.services[i]? = some sv) (hn : sv.name = r.server)
    (hfan : FanOut w.cfg r k) (hp : (places w.cfg)[eng]? = some place)
    (ho : w.cfg.services[place.1]? = some own) (hc : own.name ∈ r.client) :
    ∃ targets, Picks w eng x targets := by
  have hlt : q < (w.tables place.1).rpcTable.length := by
    rw [rpcTable_length (hs.tables place.1 own ho)]
    exact (List.getElem?_eq_some_iff.1 hr).1
  have h4 := List.getElem?_eq_getElem hlt
  obtain ⟨spec, a1, a2, a3, a4, ⟨k', sv', a5, a6, a7, a8⟩, a9, -⟩ := rpc_entry hs ho h4
  rw [hr] at a1
  cases a1
  have hik := names_inj hs.distinct.services hsv a6 (hn.trans a7.symm)
  subst hik
  rw [hsv] at a6
  cases a6
  have hone : ∀ s ∈ w.cfg.services, s.name = r.server → s = sv := by
    intro s hsm hsn
    obtain ⟨m, hm⟩ := List.getElem?_of_mem hsm
    have := names_inj hs.distinct.services hm hsv (hsn.trans hn.symm)
    subst this
    rw [hm] at hsv
    cases hsv
    rfl
  have hcount : 0 < serverCount w.cfg x.rpcServiceIndex := by
    obtain ⟨s, hs1, hs2, hs3, -⟩ := hfan
    obtain rfl := hone s hs1 hs2
    unfold serverCount
    rw [hi, Int.toNat_natCast, hsv]
    exact hs3
  obtain ⟨s', hs', hlt⟩ := mem_places.1 (List.mem_of_getElem? hp)
  rw [ho] at hs'
  cases hs'
  obtain ⟨raw, hraw, hcanon⟩ := hs.services own (List.mem_of_getElem? ho)
  obtain ⟨grid, hgrid, -⟩ := getServiceIndex_spec (canon_of_ok hraw hcanon) (i := place.2) (by omega) (by omega)
  let d : Draws := { counter := 0, draw := fun _ => 0, uniform := 0, shuffle := id }
  have hd : d.Fair := ⟨Int.le_refl 0, fun hi h => ⟨Int.le_refl 0, h⟩, fun l => .refl _⟩
  obtain ⟨hv, hnum⟩ := context_valid hs hp ho hgrid hi a5 rfl hsv a8 hd hcount
  obtain ⟨ts, g1, g2, g3⟩ := fanOut_length (own := own) (sv := sv) hv hfan a9 hone hnum (by
      show decide (x.rpcServiceIndex = place.1) = true ↔ _
      rw [decide_eq_true_eq]
      constructor
      · intro he
        have : i = place.1 := by omega
        subst this
        rw [ho] at hsv
        cases hsv
        exact hn
      · intro he
        have := names_inj hs.distinct.services ho hsv (he.trans hn.symm)
        rw [hi, this]) hc
  obtain ⟨targets, ht⟩ := map_some_exists (f := fun t : Int => engineAt w.cfg x.rpcServiceIndex.toNat t.toNat)
    (l := ts) (by
      intro t ht
      obtain ⟨e1, e2, -⟩ := g2 t ht
      rw [hi, Int.toNat_natCast]
      refine engineAt_exists hsv ?_
      rw [hnum] at e2
      unfold ServiceSpec.getCount
      omega)
  exact ⟨targets, place, own, grid, _, d, ts, hp, ho, hgrid, by rw [hq, Int.toNat_natCast]; exact h4, a4.2 hc,
    hcount, hd, g1, fun t ht => (g2 t ht).1, ht⟩

end Distbench.Whole
