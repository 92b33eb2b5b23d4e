import Verif.Lemmas.PeerChannels

/-! Property theorems C143–C150: introducing peers, connecting to them, multi-server channels. -/

namespace Distbench
open Services Peers Spec

namespace Peers

/-! ### concrete tests used beside the theorems -/

def specA : ServiceSpec := { name := ['a'], count := some 1, xSize := some 1 }
def specB : ServiceSpec := { name := ['b'], count := some 2, xSize := some 2 }
def specC : ServiceSpec := { name := ['c'], count := some 2, xSize := some 2 }

/-- Engine `a/0` sends RPCs to `b` (with the given channels) and `c` (with the given channels). -/
def sample (bs cs : List Channel) : Input where
  services := [(specA, []), (specB, bs), (specC, cs)]
  dependent := [['b'], ['c']]
  endpoints := [(['c', '/', '1'], { address := ['4'] }), (['a', '/', '0'], { address := ['0'] }),
    (['b', '/', '0'], { address := ['1'] }), (['c', '/', '0'], { address := ['3'] }),
    (['b', '/', '1'], { address := ['2'], attributes := [⟨['r'], ['7']⟩] })]
  serviceName := ['a']
  instance_ := 0

def allWell : World where
  setup := fun _ => none
  order := [2, 0, 3, 1]
  handle := fun _ => none
  channel := fun _ _ => none

/-- What a successful outcome holds. -/
def theResult : Outcome Result → Result
  | .ok r => r
  | _ => ⟨[], 0, 0, [], []⟩

def sevenOnly : Placement.ConstraintList := [[{ attributeName := ['r'], relation := .equal, stringValues := [['7']] }]]

theorem sample_introduced (bs cs : List Channel) : Introduced (sample bs cs) where
  accepted := by
    intro s hs
    simp only [Input.specs, sample, List.map_cons, List.map_nil, List.mem_cons, List.not_mem_nil, or_false] at hs
    rcases hs with rfl | rfl | rfl
    · exact ⟨{ name := ['a'], count := some 1 }, by unfold FieldsFit InI32; simp, by decide +kernel⟩
    · exact ⟨{ name := ['b'], count := some 2 }, by unfold FieldsFit InI32; simp, by decide +kernel⟩
    · exact ⟨{ name := ['c'], count := some 2 }, by unfold FieldsFit InI32; simp, by decide +kernel⟩
  counts := by
    intro s hs
    simp only [Input.specs, sample, List.map_cons, List.map_nil, List.mem_cons, List.not_mem_nil, or_false] at hs
    rcases hs with rfl | rfl | rfl <;> decide
  slashFree := by
    intro s hs
    simp only [Input.specs, sample, List.map_cons, List.map_nil, List.mem_cons, List.not_mem_nil, or_false] at hs
    rcases hs with rfl | rfl | rfl <;> decide
  distinct := by
    simp only [Input.specs, sample, List.map_cons, List.map_nil]
    decide
  endpoints := by
    refine ⟨[['a', '/', '0'], ['b', '/', '0'], ['b', '/', '1'], ['c', '/', '0'], ['c', '/', '1']], ?_, ?_⟩
    · simp only [Input.specs, sample, List.map_cons, List.map_nil]
      decide +kernel
    · simp only [sample, List.map_cons, List.map_nil]
      decide
  addresses := by
    simp only [sample]
    decide
  self := by
    refine ⟨specA, ?_, rfl, ?_, ?_⟩
    · simp [Input.specs, sample]
    · simp [sample]
    · simp [sample, specA]

/-! ### lemmas -/

theorem connect_ok {inp : Input} (h : Introduced inp) {w : World} {r : Result} (hr : connectToPeers inp w = .ok r) :
    ∃ st myName mine, Filled inp myName mine inp.endpoints st ∧ r.peers = st.peers ∧ r.traceId = st.traceId ∧
      r.numPeers = st.numTargets ∧ connectStatus w st.numTargets = none ∧
      r.connected = connects w st.peers st.numTargets ∧
      setupList inp w st.peers (enumerateServiceTypes inp.specs) (channelsOf inp) [] = .ok r.channels ∧
      ∃ k j, IsInstance inp k j myName ∧ mine = globalNumber inp k j ∧ (j : Int) = inp.instance_ ∧
        ∃ s, inp.specs[k]? = some s ∧ s.name = inp.serviceName := by
  obtain ⟨st, mine, myName, f1, f2, f3⟩ := fill h
  unfold connectToPeers at hr
  split at hr
  · cases hr
  rw [f1] at hr
  simp only [Outcome.bind] at hr
  split at hr
  · cases hr
  cases hc : connectStatus w st.numTargets with
  | some m => rw [hc] at hr; cases hr
  | none =>
    rw [hc] at hr
    dsimp only at hr
    rw [setupAll_eq] at hr
    obtain ⟨ch, c1, c2⟩ := bind_ok hr
    cases c2
    exact ⟨st, myName, mine, f2, rfl, rfl, rfl, hc, rfl, c1, f3⟩

theorem connect_eq {inp : Input} (h : Introduced inp) {w : World} :
    ∃ st myName mine, Filled inp myName mine inp.endpoints st ∧
      connectToPeers inp w = match connectStatus w st.numTargets with
        | some m => .error m
        | none =>
          (setupList inp w st.peers (enumerateServiceTypes inp.specs) (channelsOf inp) []).bind fun channels =>
            .ok { peers := st.peers, traceId := st.traceId, numPeers := st.numTargets
                  connected := connects w st.peers st.numTargets, channels := channels } := by
  obtain ⟨st, mine, myName, f1, f2, k, j, f3, _⟩ := fill h
  refine ⟨st, myName, mine, f2, ?_⟩
  unfold connectToPeers
  obtain ⟨e, he⟩ := endpoint_of h f3
  rw [if_neg (List.ne_nil_of_mem he), f1]
  simp only [Outcome.bind]
  rw [if_neg]
  · rw [setupAll_eq]
    rfl
  · have := f2.targets.length_eq
    simp at this
    omega

theorem lastSome {α : Type} (f : α → Option String) (l : List α) (s : Option String) :
    l.foldl (fun s i => assign s (f i)) s = none ↔ s = none ∧ ∀ i ∈ l, f i = none := by
  induction l generalizing s with
  | nil => simp
  | cons a l ih =>
    rw [List.foldl_cons, ih]
    cases ha : f a <;> simp [assign, ha]

theorem connectStatus_none {w : World} {n : Nat} (ho : EndsOnce w n) : connectStatus w n = none ↔ AllConnect w n := by
  unfold connectStatus
  have e : (fun (s : Option String) (i : Nat) => if w.setup i = none then assign s (w.handle i) else s) =
      (fun s i => assign s (if w.setup i = none then w.handle i else none)) := by
    funext s i
    by_cases hs : w.setup i = none
    · simp [hs]
    · simp [hs, assign]
  rw [e, lastSome, lastSome]
  simp only [true_and]
  have hm : ∀ i, i ∈ w.order ↔ i < n := fun i => by rw [ho.mem_iff, List.mem_range]
  unfold AllConnect
  constructor
  · rintro ⟨h1, h2⟩ i hi
    have hs := h1 i ((hm i).2 hi)
    have := h2 i (by simpa using hi)
    rw [if_pos hs] at this
    exact ⟨hs, this⟩
  · intro h
    refine ⟨fun i hi => (h i ((hm i).1 hi)).1, fun i hi => ?_⟩
    have := h i (by simpa using hi)
    rw [if_pos this.1]
    exact this.2

theorem names_count (dep : List Str) : ∀ (specs : List ServiceSpec) (L : List (List Str)),
    specs.mapM serviceInstanceNames = some L →
    (∀ s ∈ specs, ∀ (j : Nat) nm, (j : Int) < s.count.getD 0 → getInstanceName s j = some nm →
      nm.takeWhile (· ≠ '/') = s.name) →
    (L.flatten.filter (fun nm => nm.takeWhile (· ≠ '/') ∈ dep)).length =
      totalCount (specs.filter (fun s => s.name ∈ dep)) := by
  intro specs
  induction specs with
  | nil => intro L hL _; simp at hL; subst hL; rfl
  | cons s specs ih =>
    intro L hL hn
    rw [List.mapM_cons] at hL
    cases hs : serviceInstanceNames s with
    | none => rw [hs] at hL; cases hL
    | some l =>
      rw [hs] at hL
      cases hl : specs.mapM serviceInstanceNames with
      | none => rw [hl] at hL; cases hL
      | some L' =>
        rw [hl] at hL
        cases hL
        have hi := ih L' hl (fun s' hs' => hn s' (List.mem_cons_of_mem _ hs'))
        unfold serviceInstanceNames at hs
        obtain ⟨f1, f2⟩ := mapM_mem hs
        have hpre : ∀ nm ∈ l, nm.takeWhile (· ≠ '/') = s.name := by
          intro nm hnm
          obtain ⟨j, hj, rfl⟩ := List.mem_iff_getElem.1 hnm
          have hj' : j < (List.range s.getCount.toNat).length := by omega
          have hg := f2 j hj' hj
          simp only [List.getElem_range] at hg
          refine hn s (by simp) j _ ?_ hg
          have : s.getCount = s.count.getD 0 := rfl
          simp only [List.length_range] at hj'
          omega
        rw [List.flatten_cons, List.filter_append, List.length_append, hi, List.filter_cons]
        have hlen : l.length = (s.count.getD 0).toNat := by
          rw [f1]; simp [ServiceSpec.getCount]
        by_cases hd : s.name ∈ dep
        · rw [if_pos (by simpa using hd), totalCount, ← hlen]
          congr 2
          rw [List.filter_eq_self]
          intro nm hnm
          rw [hpre nm hnm]
          simpa using hd
        · rw [if_neg (by simpa using hd)]
          have : l.filter (fun nm => nm.takeWhile (· ≠ '/') ∈ dep) = [] := by
            rw [List.filter_eq_nil_iff]
            intro nm hnm
            rw [hpre nm hnm]
            simpa using hd
          rw [this]
          simp

theorem numTargets_eq {inp : Input} (h : Introduced inp) :
    (inp.endpoints.filter (isDep inp)).length = targetCount inp := by
  obtain ⟨ids, _, i1, _⟩ := C09_instance_ids inp.specs h.accepted h.slashFree h.distinct
  obtain ⟨names, m1, m2⟩ := h.endpoints
  unfold allServiceInstances at m1
  cases hL : inp.specs.mapM serviceInstanceNames with
  | none => rw [hL] at m1; cases m1
  | some L =>
    rw [hL] at m1
    cases m1
    unfold targetCount
    rw [← names_count inp.dependent inp.specs L hL]
    · rw [← (m2.filter _).length_eq, List.filter_map, List.length_map]
      rfl
    · intro s hs j nm hj hnm
      obtain ⟨k, hk, rfl⟩ := List.mem_iff_getElem.1 hs
      exact (locate h (List.getElem?_eq_getElem hk) hj hnm i1).2.2.1

theorem slot_mem {t : Table} {k j : Nat} {p : Peer} (h : slot t k j = some p) : p ∈ t.flatten := by
  rw [slot_nat] at h
  cases hk : t[k]? with
  | none => rw [hk] at h; cases h
  | some row =>
    rw [hk] at h
    exact List.mem_flatten.2 ⟨row, List.mem_of_getElem? hk, List.mem_of_getElem? h⟩

theorem eq_of_nodup_map {l : List Peer} (h : (l.map Peer.pdId).Nodup) {p q : Peer} (hp : p ∈ l) (hq : q ∈ l)
    (e : p.pdId = q.pdId) : p = q := by
  induction l with
  | nil => cases hp
  | cons a l ih =>
    rw [List.map_cons, List.nodup_cons] at h
    rcases List.mem_cons.1 hp with rfl | hp <;> rcases List.mem_cons.1 hq with rfl | hq
    · rfl
    · exact absurd (List.mem_map.2 ⟨q, hq, e.symm⟩) h.1
    · rename_i hp'
      exact absurd (List.mem_map.2 ⟨p, hp', e⟩) h.1
    · exact ih h.2 hp hq

theorem range_nodup (n : Nat) : ((List.range n).map fun i : Nat => (i : Int)).Nodup := by
  rw [List.nodup_iff_pairwise_ne, List.pairwise_map]
  have := List.nodup_range (n := n)
  rw [List.nodup_iff_pairwise_ne] at this
  exact this.imp (fun hab e => hab (by omega))

theorem pendingAddress_of {t : Table} {n : Nat}
    (ht : ((targets t).map Peer.pdId).Perm ((List.range n).map fun i : Nat => (i : Int)))
    {p : Peer} {i : Nat} (hp : p ∈ targets t) (hi : p.pdId = (i : Int)) : pendingAddress t i = p.address := by
  have hnd := ht.nodup_iff.2 (range_nodup n)
  unfold pendingAddress
  cases hf : (targets t).reverse.find? (fun p => p.pdId = (i : Int)) with
  | none =>
    rw [List.find?_eq_none] at hf
    exact absurd (by simpa using hi) (hf p (List.mem_reverse.2 hp))
  | some q =>
    have hq := List.find?_some hf
    simp only [decide_eq_true_eq] at hq
    have hm : q ∈ targets t := List.mem_reverse.1 (List.mem_of_find?_eq_some hf)
    have : q = p := eq_of_nodup_map hnd hm hp (by rw [hq, hi])
    rw [this]
    rfl

/-- The slot of an instance, given its endpoint. -/
theorem slot_of {inp : Input} (h : Introduced inp) {myName : Str} {mine : Int} {st : Filling}
    (hf : Filled inp myName mine inp.endpoints st) {k j : Nat} {name : Str} (hi : IsInstance inp k j name) :
    ∃ p e, inp.endpoints[p]? = some (name, e) ∧
      slot st.peers k j = some (filledSlot inp inp.endpoints p (name, e) (globalNumber inp k j)) := by
  obtain ⟨e, he⟩ := endpoint_of h hi
  obtain ⟨p, hp⟩ := List.mem_iff_getElem?.1 he
  exact ⟨p, e, hp, hf.full k j name hi p (name, e) hp rfl⟩

theorem isDep_iff {inp : Input} (h : Introduced inp) {k j : Nat} {name : Str} (hi : IsInstance inp k j name)
    (e : Endpoint) : isDep inp (name, e) = true ↔ SendsTo inp k := by
  obtain ⟨s, hs, hj, hn⟩ := hi
  obtain ⟨ids, _, i1, _⟩ := C09_instance_ids inp.specs h.accepted h.slashFree h.distinct
  have := (locate h hs hj hn i1).2.2.1
  unfold isDep SendsTo
  dsimp only
  rw [this]
  simp [hs]

theorem channel_service {inp : Input} {i : Nat} {s : ServiceSpec} {c : Channel} (h : (channelsOf inp)[i]? = some (s, c)) :
    ∃ k : Nat, inp.specs[k]? = some s ∧ s.name ∈ inp.dependent := by
  have hm := List.mem_of_getElem? h
  unfold channelsOf at hm
  rw [List.mem_flatMap] at hm
  obtain ⟨x, hx, hm⟩ := hm
  by_cases hd : x.1.name ∈ inp.dependent
  · rw [if_pos hd, List.mem_map] at hm
    obtain ⟨c', _, e⟩ := hm
    cases e
    obtain ⟨k, hk⟩ := List.mem_iff_getElem?.1 hx
    exact ⟨k, by simp [Input.specs, hk], hd⟩
  · rw [if_neg hd] at hm
    cases hm

end Peers

/-! ### C143 -/

/-- **C143.** After introductions, whatever the order of the endpoints, the entry of every instance
of every service carries that instance's own name and its number among all instances of the test;
and the engine's own number is the number of the instance it is. -/
theorem C143_peer_table (inp : Input) (h : Introduced inp) (w : World) (r : Result)
    (hr : connectToPeers inp w = .ok r) :
    (∀ k j name, IsInstance inp k j name →
      ∃ p, slot r.peers k j = some p ∧ p.logName = name ∧ p.traceId = some (globalNumber inp k j)) ∧
    (∀ k j : Nat, (∀ name, ¬ IsInstance inp k j name) → slot r.peers k j = none) ∧
    ∃ (k j : Nat) (s : ServiceSpec), inp.specs[k]? = some s ∧ s.name = inp.serviceName ∧ (j : Int) = inp.instance_ ∧
      r.traceId = globalNumber inp k j := by
  obtain ⟨st, myName, mine, f, e1, e2, e3, _, _, _, k, j, g1, g2, g3, s, g4, g5⟩ := connect_ok h hr
  rw [e1, e2]
  refine ⟨?_, ?_, k, j, s, g4, g5, g3, ?_⟩
  · intro k j name hi
    obtain ⟨p, e, _, hs⟩ := slot_of h f hi
    refine ⟨_, hs, ?_, ?_⟩ <;> unfold filledSlot <;> split <;> rfl
  · intro k' j' hno
    rw [slot_nat]
    have hsh := congrArg (fun l => l[k']?) f.shape
    simp only [List.getElem?_map] at hsh
    cases hk : inp.specs[k']? with
    | none =>
      rw [hk] at hsh
      cases hr : st.peers[k']? with
      | none => rfl
      | some row => rw [hr] at hsh; cases hsh
    | some s' =>
      obtain ⟨row, hrow, hlen⟩ := row_of f hk
      rw [hrow]
      simp only [Option.bind_some]
      rw [List.getElem?_eq_none]
      have hge : ¬ ((j' : Int) < s'.count.getD 0) := by
        intro hj
        obtain ⟨hk', rfl⟩ := List.getElem?_eq_some_iff.1 hk
        obtain ⟨_, _, _, _, _, _, _, _, _, i8⟩ := C09_instance_ids inp.specs h.accepted h.slashFree h.distinct
        obtain ⟨nm, n1, _⟩ := i8 k' hk' j' hj
        exact hno nm ⟨_, hk, hj, n1⟩
      omega
  · rw [← g2]
    apply f.trace
    obtain ⟨e, he⟩ := endpoint_of h g1
    exact List.mem_map.2 ⟨_, he, rfl⟩

example : ∃ r, connectToPeers (sample [] []) allWell = .ok r ∧ (slot r.peers 2 1).map Peer.traceId = some (some 4) :=
  ⟨theResult (connectToPeers (sample [] []) allWell), by decide +kernel, by decide +kernel⟩

/-! ### C144 -/

/-- **C144.** Once connected: there is exactly one connection for every instance of every service
that the engine sends RPCs to, numbered without gaps; an RPC to an instance is sent on the
connection that was made to that instance's own address; different instances use different
connections; instances of other services have none. -/
theorem C144_right_connection (inp : Input) (h : Introduced inp) (w : World) (ho : EndsOnce w (targetCount inp))
    (r : Result) (hr : connectToPeers inp w = .ok r) :
    r.numPeers = targetCount inp ∧
    r.connected.map Prod.fst = List.range (targetCount inp) ∧
    (∀ k j name e, IsInstance inp k j name → SendsTo inp k → (name, e) ∈ inp.endpoints →
      ∃ i : Nat, rpcPeer r.peers k j = some i ∧ (i, e.address) ∈ r.connected) ∧
    (∀ k j k' j' name name', IsInstance inp k j name → IsInstance inp k' j' name' → SendsTo inp k → SendsTo inp k' →
      rpcPeer r.peers k j = rpcPeer r.peers k' j' → k = k' ∧ j = j') ∧
    (∀ k j name, IsInstance inp k j name → ¬ SendsTo inp k → rpcPeer r.peers k j = some (-1)) := by
  obtain ⟨st, myName, mine, f, e1, e2, e3, hc, e4, _⟩ := connect_ok h hr
  have hnum : st.numTargets = targetCount inp := by rw [f.num, numTargets_eq h]
  rw [hnum] at hc e3 e4
  have hall := (connectStatus_none ho).1 hc
  have hconn : r.connected = (List.range (targetCount inp)).map fun i => (i, pendingAddress st.peers i) := by
    rw [e4]
    unfold connects
    congr 1
    rw [List.filter_eq_self]
    intro i hi
    simpa using (hall i (by simpa using hi)).1
  have hslot : ∀ k j name e, IsInstance inp k j name → SendsTo inp k → (name, e) ∈ inp.endpoints →
      ∃ p : Peer, slot st.peers k j = some p ∧ p.address = e.address ∧ p ∈ targets st.peers ∧ p.logName = name := by
    intro k j name e hi hs he
    obtain ⟨p, e', hp, hsl⟩ := slot_of h f hi
    have hee : e' = e := by
      have a1 := (mem_find (nodup_keys h) name e').2 (List.mem_of_getElem? hp)
      have a2 := (mem_find (nodup_keys h) name e).2 he
      rw [a1] at a2
      exact Option.some.inj a2
    subst hee
    refine ⟨_, hsl, ?_, ?_, ?_⟩
    · unfold filledSlot; rw [if_pos ((isDep_iff h hi e').2 hs)]
    · unfold targets
      refine List.mem_filter.2 ⟨slot_mem hsl, ?_⟩
      unfold filledSlot; rw [if_pos ((isDep_iff h hi e').2 hs)]
      simpa using h.addresses _ he
    · unfold filledSlot; split <;> rfl
  have htn := f.targets
  rw [hnum] at htn
  refine ⟨e3, ?_, ?_, ?_, ?_⟩
  · rw [hconn, List.map_map]
    conv => rhs; rw [← List.map_id (List.range (targetCount inp))]
    rfl
  · intro k j name e hi hs he
    obtain ⟨p, p1, p2, p3, _⟩ := hslot k j name e hi hs he
    have hmem : p.pdId ∈ (targets st.peers).map Peer.pdId := List.mem_map.2 ⟨p, p3, rfl⟩
    rw [htn.mem_iff, List.mem_map] at hmem
    obtain ⟨i, hi1, hi2⟩ := hmem
    refine ⟨i, ?_, ?_⟩
    · unfold rpcPeer
      rw [e1, p1]
      simp [hi2]
    · rw [hconn, ← p2, ← pendingAddress_of htn p3 hi2.symm]
      exact List.mem_map.2 ⟨i, hi1, rfl⟩
  · intro k j k' j' name name' hi hi' hs hs' heq
    obtain ⟨e, he⟩ := endpoint_of h hi
    obtain ⟨e', he'⟩ := endpoint_of h hi'
    obtain ⟨p, p1, _, p3, p4⟩ := hslot k j name e hi hs he
    obtain ⟨q, q1, _, q3, q4⟩ := hslot k' j' name' e' hi' hs' he'
    unfold rpcPeer at heq
    rw [e1, p1, q1] at heq
    have hpq := eq_of_nodup_map (htn.nodup_iff.2 (range_nodup _)) p3 q3 (by simpa using heq)
    rw [← hpq, p4] at q4
    subst q4
    exact instance_unique h hi hi'
  · intro k j name hi hs
    obtain ⟨p, e', hp, hsl⟩ := slot_of h f hi
    unfold rpcPeer
    rw [e1, hsl]
    unfold filledSlot
    rw [if_neg (fun hd => hs ((isDep_iff h hi e').1 hd))]
    rfl

example : EndsOnce allWell (targetCount (sample [] [])) ∧
    ∃ r, connectToPeers (sample [] []) allWell = .ok r ∧ rpcPeer r.peers 1 1 = some 3 ∧ (3, ['2']) ∈ r.connected :=
  ⟨by unfold EndsOnce; decide +kernel, theResult (connectToPeers (sample [] []) allWell), by decide +kernel, by decide +kernel, by decide +kernel⟩

/-! ### C145 -/

/-- **C145.** Introductions succeed exactly when every connection is made, and fail with an error
(not a crash) otherwise, in whatever order the connections end; with no peers at all they fail. -/
theorem C145_connection_failures_reported (inp : Input) (w : World) :
    (inp.endpoints = [] → ∃ m, connectToPeers inp w = .error m) ∧
    (Introduced inp → EndsOnce w (targetCount inp) →
      (¬ AllConnect w (targetCount inp) → ∃ m, connectToPeers inp w = .error m) ∧
      (channelsOf inp = [] → AllConnect w (targetCount inp) → ∃ r, connectToPeers inp w = .ok r)) := by
  refine ⟨?_, ?_⟩
  · intro h
    unfold connectToPeers
    rw [if_pos h]
    exact ⟨_, rfl⟩
  · intro h ho
    obtain ⟨st, myName, mine, f, heq⟩ := connect_eq h (w := w)
    have hnum : st.numTargets = targetCount inp := by rw [f.num, numTargets_eq h]
    rw [hnum] at heq
    refine ⟨?_, ?_⟩
    · intro hn
      cases hc : connectStatus w (targetCount inp) with
      | none => exact absurd ((connectStatus_none ho).1 hc) hn
      | some m => rw [heq, hc]; exact ⟨m, rfl⟩
    · intro hch hall
      rw [heq, (connectStatus_none ho).2 hall, hch]
      exact ⟨_, rfl⟩

example : ∃ w : World, EndsOnce w (targetCount (sample [] [])) ∧ ¬ AllConnect w (targetCount (sample [] [])) ∧
    connectToPeers (sample [] []) w = .error "refused" :=
  ⟨{ allWell with handle := fun i => if i = 2 then some "refused" else none },
   by unfold EndsOnce; decide +kernel,
   fun h => by have := (h 2 (by decide)).2; simp at this, by decide +kernel⟩

/-! ### C146 -/

/-- **C146.** Once connected, the channels of the services that the engine sends RPCs to have been
set up in the order of the configuration, and each reaches exactly the instances that it selects by
number or by constraints, once each. -/
theorem C146_channel_members (inp : Input) (h : Introduced inp) (w : World) (r : Result)
    (hr : connectToPeers inp w = .ok r) :
    r.channels.length = (channelsOf inp).length ∧
    ∀ (i : Nat) s c, (channelsOf inp)[i]? = some (s, c) →
      ∃ (k : Nat) (ids : List Int), inp.specs[k]? = some s ∧ r.channels[i]? = some ids ∧ w.channel i ids = none ∧
        ids ≠ [] ∧ ids.Pairwise (· < ·) ∧
        ∀ x, x ∈ ids ↔ ∃ j : Nat, InChannel inp s c j ∧ rpcPeer r.peers k j = some x := by
  obtain ⟨st, myName, mine, f, e1, e2, e3, hc, e4, e5, _⟩ := connect_ok h hr
  obtain ⟨L, l1, l2, l3⟩ := setupList_ok e5
  rw [List.nil_append] at l1
  subst l1
  refine ⟨l2, ?_⟩
  intro i s c hi
  obtain ⟨ids, i1, i2, i3⟩ := l3 i s c hi
  obtain ⟨k, hk, _⟩ := channel_service hi
  obtain ⟨c1, c2, _, c4⟩ := channelPeers_ok h f hk i2
  exact ⟨k, ids, hk, i1, by simpa using i3, c1, c2, by rw [e1]; exact c4⟩

example : ∃ r, connectToPeers (sample [{ name := ['x'], constraints := some sevenOnly }]
      [{ name := ['y'], selected := [1, 0, 1] }]) allWell = .ok r ∧ r.channels = [[3], [0, 2]] :=
  ⟨theResult (connectToPeers (sample [{ name := ['x'], constraints := some sevenOnly }]
      [{ name := ['y'], selected := [1, 0, 1] }]) allWell), by decide +kernel, by decide +kernel⟩

/-! ### C147 -/

/-- **C147.** A channel that selects an instance that the service does not have, or that reaches no
instance at all, makes introductions fail with an error; when every channel is sound and the driver
supports channels, they succeed. -/
theorem C147_unusable_channels_refused (inp : Input) (h : Introduced inp) (w : World)
    (ho : EndsOnce w (targetCount inp)) (hm : ∀ x ∈ channelsOf inp, ChannelModuliOk x.2)
    (hn : ∀ x ∈ channelsOf inp, ∀ i ∈ x.2.selected, 0 ≤ i) :
    ((∃ r, connectToPeers inp w = .ok r) ∨ ∃ m, connectToPeers inp w = .error m) ∧
    ((∃ x ∈ channelsOf inp, (∃ i ∈ x.2.selected, i ≥ x.1.count.getD 0) ∨ ∀ j, ¬ InChannel inp x.1 x.2 j) →
      ∃ m, connectToPeers inp w = .error m) ∧
    ((∀ x ∈ channelsOf inp, (∀ i ∈ x.2.selected, i < x.1.count.getD 0) ∧ ∃ j, InChannel inp x.1 x.2 j) →
      (∀ n ids, w.channel n ids = none) → AllConnect w (targetCount inp) → ∃ r, connectToPeers inp w = .ok r) := by
  obtain ⟨st, myName, mine, f, heq⟩ := connect_eq h (w := w)
  have hnum : st.numTargets = targetCount inp := by rw [f.num, numTargets_eq h]
  rw [hnum] at heq
  have hserv : ∀ x ∈ channelsOf inp, ∃ k : Nat, inp.specs[k]? = some x.1 := by
    intro x hx
    obtain ⟨i, hi⟩ := List.mem_iff_getElem?.1 hx
    obtain ⟨k, hk, _⟩ := channel_service (s := x.1) (c := x.2) hi
    exact ⟨k, hk⟩
  have hone : ∀ x ∈ channelsOf inp,
      ((∀ i ∈ x.2.selected, i < x.1.count.getD 0) → (∃ j, InChannel inp x.1 x.2 j) →
        ∃ ids, channelPeers inp st.peers (enumerateServiceTypes inp.specs) x.1 x.2 = .ok ids) ∧
      ((∃ i ∈ x.2.selected, i ≥ x.1.count.getD 0) ∨ (∀ j, ¬ InChannel inp x.1 x.2 j) →
        ∃ m, channelPeers inp st.peers (enumerateServiceTypes inp.specs) x.1 x.2 = .error m) := by
    intro x hx
    obtain ⟨k, hk⟩ := hserv x hx
    exact channelPeers_total h f hk (hn x hx) (hm x hx)
  have htot : ∀ x ∈ channelsOf inp,
      (∃ ids, channelPeers inp st.peers (enumerateServiceTypes inp.specs) x.1 x.2 = .ok ids) ∨
      ∃ m, channelPeers inp st.peers (enumerateServiceTypes inp.specs) x.1 x.2 = .error m := by
    intro x hx
    obtain ⟨a, b⟩ := hone x hx
    by_cases hsel : ∃ i ∈ x.2.selected, i ≥ x.1.count.getD 0
    · exact Or.inr (b (Or.inl hsel))
    · by_cases hj : ∃ j, InChannel inp x.1 x.2 j
      · refine Or.inl (a ?_ hj)
        intro i hi
        have : ¬ (i ≥ x.1.count.getD 0) := fun hge => hsel ⟨i, hi, hge⟩
        omega
      · exact Or.inr (b (Or.inr (fun j hjj => hj ⟨j, hjj⟩)))
  obtain ⟨s1, s2, s3⟩ := setupList_total (w := w) [] htot
  rw [heq]
  cases hc : connectStatus w (targetCount inp) with
  | some m =>
    refine ⟨Or.inr ⟨m, rfl⟩, fun _ => ⟨m, rfl⟩, fun _ _ hall => ?_⟩
    rw [(connectStatus_none ho).2 hall] at hc
    cases hc
  | none =>
    dsimp only
    refine ⟨?_, ?_, ?_⟩
    · rcases s3 with ⟨r, e⟩ | ⟨m, e⟩
      · rw [e]; exact Or.inl ⟨_, rfl⟩
      · rw [e]; exact Or.inr ⟨m, rfl⟩
    · rintro ⟨x, hx, hbad⟩
      obtain ⟨m, e⟩ := s1 ⟨x, hx, (hone x hx).2 hbad⟩
      rw [e]
      exact ⟨m, rfl⟩
    · intro hgood hw _
      obtain ⟨r, e⟩ := s2 (fun x hx => (hone x hx).1 (hgood x hx).1 (hgood x hx).2) hw
      rw [e]
      exact ⟨_, rfl⟩

example : (∃ m, connectToPeers (sample [{ name := ['x'], selected := [2] }] []) allWell = .error m) ∧
    (∃ m, connectToPeers (sample [] [{ name := ['x'], constraints := some sevenOnly }]) allWell = .error m) :=
  ⟨⟨"selected_instances out of range for service", by decide +kernel⟩,
    ⟨"No matching constraints, and no selected_instances field", by decide +kernel⟩⟩

/-! ### C148 -/

/-- **C148, the part that holds.** When introductions succeed, every instance number that a channel
selects is one that its service has. -/
theorem C148_selection_in_range_partial (inp : Input) (h : Introduced inp) (w : World) (r : Result)
    (hr : connectToPeers inp w = .ok r) :
    ∀ x ∈ channelsOf inp, ∀ i ∈ x.2.selected, 0 ≤ i ∧ i < x.1.count.getD 0 := by
  obtain ⟨st, myName, mine, f, e1, e2, e3, hc, e4, e5, _⟩ := connect_ok h hr
  obtain ⟨L, _, _, l3⟩ := setupList_ok e5
  intro x hx
  obtain ⟨i, hi⟩ := List.mem_iff_getElem?.1 hx
  obtain ⟨ids, _, i2, _⟩ := l3 i x.1 x.2 hi
  obtain ⟨k, hk, _⟩ := channel_service (s := x.1) (c := x.2) hi
  exact (channelPeers_ok h f hk i2).2.2.1

/-- **C148, why the full statement is false.** A negative instance number is not refused: it is used
as an index before the start of the table (undefined behaviour). -/
theorem C148_negation : ∃ (inp : Input) (w : World), Introduced inp ∧ EndsOnce w (targetCount inp) ∧
    (∃ x ∈ channelsOf inp, -1 ∈ x.2.selected) ∧ connectToPeers inp w = .ub :=
  ⟨sample [{ name := ['x'], selected := [-1] }] [], allWell, sample_introduced _ _,
    by unfold EndsOnce; decide +kernel, by decide +kernel, by decide +kernel⟩

/-! ### C149 -/

/-- **C149, the part that holds.** If no service listed earlier that the engine sends RPCs to has
channels, an RPC that names a channel of its server uses exactly the instances of that channel. -/
theorem C149_named_channel_partial (inp : Input) (h : Introduced inp) (w : World) (r : Result)
    (hr : connectToPeers inp w = .ok r) (pre post : List (ServiceSpec × List Channel)) (s : ServiceSpec)
    (cs : List Channel) (hserv : inp.services = pre ++ (s, cs) :: post) (hdep : s.name ∈ inp.dependent)
    (hpre : ∀ x ∈ pre, x.1.name ∈ inp.dependent → x.2 = []) (name : Str) (i : Nat)
    (hi : rpcChannel cs name = some i) :
    ∃ c ids, c ∈ cs ∧ c.name = name ∧ r.channels[i]? = some ids ∧
      ∀ x, x ∈ ids ↔ ∃ j : Nat, InChannel inp s c j ∧ rpcPeer r.peers pre.length j = some x := by
  have hidx : ∃ c, cs[i]? = some c ∧ c.name = name := by
    unfold rpcChannel Tables.channelIndex at hi
    rw [List.findIdx?_eq_some_iff_getElem] at hi
    obtain ⟨h1, h2, _⟩ := hi
    have h1' : i < cs.length := by simpa using h1
    exact ⟨cs[i], List.getElem?_eq_getElem h1', by simpa using h2⟩
  obtain ⟨c, c1, c2⟩ := hidx
  have hch : (channelsOf inp)[i]? = some (s, c) := by
    unfold channelsOf
    rw [hserv, List.flatMap_append, List.flatMap_cons]
    have : (pre.flatMap fun s => if s.1.name ∈ inp.dependent then s.2.map (fun c => (s.1, c)) else []) = [] := by
      rw [List.flatMap_eq_nil_iff]
      intro x hx
      by_cases hd : x.1.name ∈ inp.dependent
      · rw [if_pos hd, hpre x hx hd]; rfl
      · rw [if_neg hd]
    rw [this, List.nil_append]
    dsimp only
    rw [if_pos hdep, List.getElem?_append_left (by simpa using (List.getElem?_eq_some_iff.1 c1).1), List.getElem?_map, c1]
    rfl
  obtain ⟨_, hall⟩ := C146_channel_members inp h w r hr
  obtain ⟨k, ids, k1, k2, _, _, _, k6⟩ := hall i s c hch
  have hk : k = pre.length := by
    have hp : inp.specs[pre.length]? = some s := by simp [Input.specs, hserv]
    have a1 := index_of h k1
    have a2 := index_of h hp
    rw [a1] at a2
    have := Option.some.inj a2
    omega
  subst hk
  exact ⟨c, ids, List.mem_of_getElem? c1, c2, k2, k6⟩

/-- **C149, why the full statement is false.** With channels in two services, an RPC to the second
service that names its channel is sent on the first service's channel: the number used is the
position among the server's own channels, while channels are set up with one numbering for all
services. -/
theorem C149_negation : ∃ (inp : Input) (w : World) (r : Result) (s : ServiceSpec) (c : Channel) (i : Nat) (ids : List Int),
    Introduced inp ∧ connectToPeers inp w = .ok r ∧ (s, [c]) ∈ inp.services ∧ s.name ∈ inp.dependent ∧
    rpcChannel [c] c.name = some i ∧ r.channels[i]? = some ids ∧
    inp.specs[2]? = some s ∧ ∀ x ∈ ids, ∀ j : Nat, j < 2 → rpcPeer r.peers 2 j ≠ some x :=
  ⟨sample [{ name := ['x'], selected := [0] }] [{ name := ['y'], selected := [0] }], allWell,
    theResult (connectToPeers (sample [{ name := ['x'], selected := [0] }] [{ name := ['y'], selected := [0] }]) allWell), specC,
    { name := ['y'], selected := [0] }, 0, [1], sample_introduced _ _, by decide +kernel, by decide, by decide, by decide,
    by decide +kernel, by decide, by decide +kernel⟩

example : ∃ r, connectToPeers (sample [{ name := ['x'], selected := [0] }, { name := ['y'], selected := [1] }] []) allWell = .ok r ∧
    rpcChannel [{ name := ['x'], selected := [0] }, { name := ['y'], selected := [1] }] ['y'] = some 1 ∧
    r.channels[1]? = some [3] :=
  ⟨theResult (connectToPeers (sample [{ name := ['x'], selected := [0] }, { name := ['y'], selected := [1] }] []) allWell),
    by decide +kernel, by decide, by decide +kernel⟩

/-! ### C150 -/

/-- **C150, the part that holds.** If the server has every channel that the trace lists, entry `i`
of the trace's list stands for the channel with the `i`-th name. -/
theorem C150_trace_channels_partial (channels : List Channel) (names : List Str)
    (h : ∀ n ∈ names, ∃ c ∈ channels, c.name = n) (i : Nat) (n : Str) (hi : names[i]? = some n) :
    ∃ k c, (logicalToMsc channels names)[i]? = some k ∧ channels[k]? = some c ∧ c.name = n := by
  have hsome : ∀ n ∈ names, ∃ k c, rpcChannel channels n = some k ∧ channels[k]? = some c ∧ c.name = n := by
    intro n hn
    obtain ⟨c, hc, rfl⟩ := h n hn
    unfold rpcChannel Tables.channelIndex
    cases hf : (channels.map Channel.name).findIdx? (fun n => n = c.name) with
    | none =>
      rw [List.findIdx?_eq_none_iff] at hf
      have := hf c.name (List.mem_map.2 ⟨c, hc, rfl⟩)
      simp at this
    | some k =>
      rw [List.findIdx?_eq_some_iff_getElem] at hf
      obtain ⟨h1, h2, _⟩ := hf
      have h1' : k < channels.length := by simpa using h1
      exact ⟨k, channels[k], rfl, List.getElem?_eq_getElem h1', by simpa using h2⟩
  clear h
  unfold logicalToMsc
  induction names generalizing i with
  | nil => simp at hi
  | cons a names ih =>
    obtain ⟨k, c, h1, h2, h3⟩ := hsome a (by simp)
    rw [List.filterMap_cons, h1]
    dsimp only
    cases i with
    | zero =>
      simp at hi
      subst hi
      exact ⟨k, c, by simp, h2, h3⟩
    | succ i =>
      simp at hi
      simpa using ih i hi (fun n hn => hsome n (List.mem_cons_of_mem _ hn))

/-- **C150, why the full statement is false.** A listed name that the server does not have is
skipped, so later entries stand for the wrong channels. -/
theorem C150_negation : ∃ (channels : List Channel) (names : List Str) (k : Nat) (c : Channel),
    names[0]? ≠ some c.name ∧ (logicalToMsc channels names)[0]? = some k ∧ channels[k]? = some c :=
  ⟨[{ name := ['x'] }], [['z'], ['x']], 0, { name := ['x'] }, by decide, by decide, by decide⟩

example : logicalToMsc [{ name := ['x'] }, { name := ['y'] }] [['y'], ['x'], ['y']] = [1, 0, 1] := by decide

end Distbench
