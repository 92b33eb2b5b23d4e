import Verif.Lemmas.Peers
import Verif.Props.Placement

/-! Lemmas about multi-server channels. -/

namespace Distbench.Peers
open Services Spec

theorem bind_ok {α β : Type} {x : Outcome α} {f : α → Outcome β} {b : β} (h : x.bind f = .ok b) :
    ∃ a, x = .ok a ∧ f a = .ok b := by
  cases x with
  | ok a => exact ⟨a, rfl, h⟩
  | error m => cases h
  | ub => cases h
  | crash => cases h

theorem selectedPeers_ok {count : Int} {row : List Peer} {l : List Int} {ids : List Int}
    (h : selectedPeers count row l = .ok ids) :
    (∀ i ∈ l, 0 ≤ i ∧ i < count) ∧
    ∀ x, x ∈ ids ↔ ∃ j : Nat, (j : Int) ∈ l ∧ ∃ p, row[j]? = some p ∧ p.pdId = x := by
  induction l generalizing ids with
  | nil => cases h; simp
  | cons i l ih =>
    rw [selectedPeers] at h
    by_cases h1 : i ≥ count
    · rw [if_pos h1] at h; cases h
    rw [if_neg h1] at h
    by_cases h2 : i < 0
    · rw [if_pos h2] at h; cases h
    rw [if_neg h2] at h
    cases hr : row[i.toNat]? with
    | none => rw [hr] at h; cases h
    | some p =>
      rw [hr] at h
      obtain ⟨ids', e1, e2⟩ := bind_ok h
      cases e2
      obtain ⟨a1, a2⟩ := ih e1
      refine ⟨?_, ?_⟩
      · intro y hy
        rcases List.mem_cons.1 hy with rfl | hy
        · omega
        · exact a1 y hy
      · intro x
        rw [List.mem_cons, a2]
        constructor
        · rintro (rfl | ⟨j, b1, b2⟩)
          · exact ⟨i.toNat, by rw [Int.toNat_of_nonneg (by omega)]; simp, p, hr, rfl⟩
          · exact ⟨j, List.mem_cons_of_mem _ b1, b2⟩
        · rintro ⟨j, b1, q, b2, b3⟩
          rcases List.mem_cons.1 b1 with hj | b1
          · left
            have : i.toNat = j := by omega
            rw [this, b2] at hr
            cases hr
            exact b3.symm
          · exact Or.inr ⟨j, b1, q, b2, b3⟩

theorem selectedPeers_total {count : Int} {row : List Peer} {l : List Int} (hr : row.length = count.toNat)
    (hl : ∀ i ∈ l, 0 ≤ i) :
    (∃ ids, selectedPeers count row l = .ok ids) ∨
    ((∃ i ∈ l, i ≥ count) ∧ ∃ m, selectedPeers count row l = .error m) := by
  induction l with
  | nil => exact Or.inl ⟨_, rfl⟩
  | cons i l ih =>
    rw [selectedPeers]
    by_cases h1 : i ≥ count
    · rw [if_pos h1]; exact Or.inr ⟨⟨i, by simp, h1⟩, _, rfl⟩
    have h2 := hl i (by simp)
    rw [if_neg h1, if_neg (by omega), List.getElem?_eq_getElem (by omega)]
    dsimp only
    rcases ih (fun y hy => hl y (List.mem_cons_of_mem _ hy)) with ⟨ids, e⟩ | ⟨⟨y, hy, hy'⟩, m, e⟩
    · rw [e]; exact Or.inl ⟨_, rfl⟩
    · rw [e]; exact Or.inr ⟨⟨y, List.mem_cons_of_mem _ hy, hy'⟩, m, rfl⟩

theorem matchingPeers_ok {endpoints : List (Str × Endpoint)} {spec : ServiceSpec} {row : List Peer}
    {cl : Placement.ConstraintList} {left i : Nat} {ids : List Int}
    (h : matchingPeers endpoints spec row cl left i = .ok ids) :
    ∀ x, x ∈ ids ↔ ∃ j : Nat, i ≤ j ∧ j < i + left ∧
      (∃ name e, getInstanceName spec j = some name ∧ findEndpoint endpoints name = some e ∧
        SatisfiesAll e.attributes cl) ∧ ∃ p, row[j]? = some p ∧ p.pdId = x := by
  induction left generalizing i ids with
  | zero =>
    cases h
    intro x
    simp only [List.not_mem_nil, false_iff]
    rintro ⟨j, h1, h2, _⟩
    omega
  | succ left ih =>
    rw [matchingPeers] at h
    cases hn : getInstanceName spec i with
    | none => rw [hn] at h; cases h
    | some name =>
      rw [hn] at h
      dsimp only at h
      cases he : findEndpoint endpoints name with
      | none => rw [he] at h; cases h
      | some e =>
        rw [he] at h
        dsimp only at h
        obtain ⟨b, hb, h⟩ := bind_ok h
        have hs := C15_verdict_sound cl e.attributes b hb
        have hrest : ∀ (ids' : List Int), matchingPeers endpoints spec row cl left (i + 1) = .ok ids' →
            ∀ x, x ∈ ids' → ∃ j : Nat, i ≤ j ∧ j < i + (left + 1) ∧
              (∃ name e, getInstanceName spec j = some name ∧ findEndpoint endpoints name = some e ∧
                SatisfiesAll e.attributes cl) ∧ ∃ p, row[j]? = some p ∧ p.pdId = x := by
          intro ids' h' x hx
          obtain ⟨j, a, b, c⟩ := (ih h' x).1 hx
          exact ⟨j, by omega, by omega, c⟩
        cases b with
        | true =>
          rw [if_pos rfl] at h
          cases hr : row[i]? with
          | none => rw [hr] at h; cases h
          | some p =>
            rw [hr] at h
            obtain ⟨ids', e1, e2⟩ := bind_ok h
            cases e2
            intro x
            rw [List.mem_cons]
            constructor
            · rintro (rfl | hx)
              · exact ⟨i, by omega, by omega, ⟨name, e, hn, he, hs.1 rfl⟩, p, hr, rfl⟩
              · exact hrest ids' e1 x hx
            · rintro ⟨j, a, b, c, q, d1, d2⟩
              by_cases hij : j = i
              · subst hij
                rw [hr] at d1
                cases d1
                exact Or.inl d2.symm
              · exact Or.inr ((ih e1 x).2 ⟨j, by omega, by omega, c, q, d1, d2⟩)
        | false =>
          rw [if_neg (by decide)] at h
          intro x
          constructor
          · exact hrest ids h x
          · rintro ⟨j, a, b, ⟨name', e', c1, c2, c3⟩, q⟩
            by_cases hij : j = i
            · subst hij
              rw [hn] at c1
              cases c1
              rw [he] at c2
              cases c2
              exact absurd (hs.2 c3) (by decide)
            · exact (ih h x).2 ⟨j, by omega, by omega, ⟨name', e', c1, c2, c3⟩, q⟩

theorem matchingPeers_total {endpoints : List (Str × Endpoint)} {spec : ServiceSpec} {row : List Peer}
    {cl : Placement.ConstraintList} (hm : ∀ cs ∈ cl, ∀ c ∈ cs, ModulusOk c) {left i : Nat}
    (hr : i + left ≤ row.length)
    (hn : ∀ j, j < i + left → ∃ name e, getInstanceName spec j = some name ∧ findEndpoint endpoints name = some e) :
    ∃ ids, matchingPeers endpoints spec row cl left i = .ok ids := by
  induction left generalizing i with
  | zero => exact ⟨_, rfl⟩
  | succ left ih =>
    obtain ⟨name, e, h1, h2⟩ := hn i (by omega)
    obtain ⟨ids, h3⟩ := ih (i := i + 1) (by omega) (fun j hj => hn j (by omega))
    obtain ⟨b, h4⟩ := C61_verdict_partial cl e.attributes hm
    rw [matchingPeers, h1]
    dsimp only
    rw [h2]
    dsimp only
    rw [h4]
    simp only [Outcome.bind]
    cases b with
    | true =>
      rw [if_pos rfl, List.getElem?_eq_getElem (by omega)]
      dsimp only
      rw [h3]
      exact ⟨_, rfl⟩
    | false =>
      rw [if_neg (by decide)]
      exact ⟨_, h3⟩

theorem mem_insertId (a x : Int) (l : List Int) : x ∈ insertId a l ↔ x = a ∨ x ∈ l := by
  induction l with
  | nil => simp [insertId]
  | cons b l ih =>
    rw [insertId]
    by_cases h1 : a < b
    · simp [h1]
    · by_cases h2 : a = b
      · subst h2; simp
      · simp only [h1, h2, if_false, List.mem_cons, ih]
        grind

theorem insertId_sorted (a : Int) {l : List Int} (h : l.Pairwise (· < ·)) : (insertId a l).Pairwise (· < ·) := by
  induction l with
  | nil => simp [insertId]
  | cons b l ih =>
    rw [insertId]
    rw [List.pairwise_cons] at h
    by_cases h1 : a < b
    · simp only [h1, if_true, List.pairwise_cons]
      refine ⟨?_, h⟩
      intro x hx
      rcases List.mem_cons.1 hx with rfl | hx
      · exact h1
      · have := h.1 x hx; omega
    · by_cases h2 : a = b
      · subst h2
        simp only [Int.lt_irrefl, if_false, if_true]
        exact List.pairwise_cons.2 h
      · simp only [h1, h2, if_false, List.pairwise_cons]
        refine ⟨?_, ih h.2⟩
        intro x hx
        rcases (mem_insertId a x l).1 hx with rfl | hx
        · omega
        · exact h.1 x hx

theorem mem_sortUnique (x : Int) (l : List Int) : x ∈ sortUnique l ↔ x ∈ l := by
  unfold sortUnique
  induction l with
  | nil => simp
  | cons a l ih => rw [List.foldr_cons, mem_insertId, ih]; simp

theorem sortUnique_sorted (l : List Int) : (sortUnique l).Pairwise (· < ·) := by
  unfold sortUnique
  induction l with
  | nil => simp
  | cons a l ih => rw [List.foldr_cons]; exact insertId_sorted a ih

/-! ### all channels as one list -/

/-- Setting up a list of channels, each with its service. -/
def setupList (inp : Input) (w : World) (t : Table) (index : NameMap) :
    List (ServiceSpec × Channel) → List (List Int) → Outcome (List (List Int))
  | [], done => .ok done
  | (s, c) :: rest, done =>
    (channelPeers inp t index s c).bind fun ids =>
      match w.channel done.length ids with
      | some m => .error m
      | none => setupList inp w t index rest (done ++ [ids])

theorem setupList_append (inp : Input) (w : World) (t : Table) (index : NameMap) (a b : List (ServiceSpec × Channel))
    (done : List (List Int)) : setupList inp w t index (a ++ b) done =
      (setupList inp w t index a done).bind (setupList inp w t index b) := by
  induction a generalizing done with
  | nil => rfl
  | cons x a ih =>
    obtain ⟨s, c⟩ := x
    simp only [List.cons_append, setupList]
    cases channelPeers inp t index s c with
    | ok ids =>
      simp only [Outcome.bind]
      cases w.channel done.length ids with
      | some m => rfl
      | none => exact ih _
    | error m => rfl
    | ub => rfl
    | crash => rfl

theorem setupChannels_eq (inp : Input) (w : World) (t : Table) (index : NameMap) (s : ServiceSpec) (cs : List Channel)
    (done : List (List Int)) :
    setupChannels inp w t index s cs done = setupList inp w t index (cs.map fun c => (s, c)) done := by
  induction cs generalizing done with
  | nil => rfl
  | cons c cs ih =>
    simp only [List.map_cons, setupList, setupChannels]
    cases channelPeers inp t index s c with
    | ok ids =>
      simp only [Outcome.bind]
      cases w.channel done.length ids with
      | some m => rfl
      | none => exact ih _
    | error m => rfl
    | ub => rfl
    | crash => rfl

theorem setupAll_eq (inp : Input) (w : World) (t : Table) (index : NameMap) (l : List (ServiceSpec × List Channel))
    (done : List (List Int)) : setupAllChannels inp w t index l done =
      setupList inp w t index (l.flatMap fun s => if s.1.name ∈ inp.dependent then s.2.map (fun c => (s.1, c)) else []) done := by
  induction l generalizing done with
  | nil => rfl
  | cons x l ih =>
    obtain ⟨s, cs⟩ := x
    rw [setupAllChannels, List.flatMap_cons]
    dsimp only
    by_cases hd : s.name ∈ inp.dependent
    · rw [if_pos hd, if_pos hd, setupList_append, setupChannels_eq]
      congr 1
      funext d
      exact ih d
    · rw [if_neg hd, if_neg hd]
      exact ih done

theorem setupList_ok {inp : Input} {w : World} {t : Table} {index : NameMap} {l : List (ServiceSpec × Channel)}
    {done r : List (List Int)} (h : setupList inp w t index l done = .ok r) :
    ∃ L, r = done ++ L ∧ L.length = l.length ∧ ∀ (i : Nat) s c, l[i]? = some (s, c) →
      ∃ ids, L[i]? = some ids ∧ channelPeers inp t index s c = .ok ids ∧ w.channel (done.length + i) ids = none := by
  induction l generalizing done with
  | nil => cases h; exact ⟨[], by simp⟩
  | cons x l ih =>
    obtain ⟨s, c⟩ := x
    rw [setupList] at h
    obtain ⟨ids, e1, e2⟩ := bind_ok h
    cases hw : w.channel done.length ids with
    | some m => rw [hw] at e2; cases e2
    | none =>
      rw [hw] at e2
      obtain ⟨L, rfl, f2, f3⟩ := ih e2
      refine ⟨ids :: L, by simp, by simp [f2], ?_⟩
      intro i s' c' hi
      cases i with
      | zero =>
        simp at hi
        obtain ⟨rfl, rfl⟩ := hi
        exact ⟨ids, by simp, e1, by simpa using hw⟩
      | succ i =>
        simp at hi
        obtain ⟨ids', g1, g2, g3⟩ := f3 i s' c' hi
        refine ⟨ids', by simpa using g1, g2, ?_⟩
        simp only [List.length_append, List.length_singleton] at g3
        rw [← g3]
        congr 1
        omega

/-- Where every channel is either set up or refused, so is the list; and it is refused if one of
them is, or if the driver refuses one. -/
theorem setupList_total {inp : Input} {w : World} {t : Table} {index : NameMap} {l : List (ServiceSpec × Channel)}
    (done : List (List Int))
    (h : ∀ x ∈ l, (∃ ids, channelPeers inp t index x.1 x.2 = .ok ids) ∨ ∃ m, channelPeers inp t index x.1 x.2 = .error m) :
    ((∃ x ∈ l, ∃ m, channelPeers inp t index x.1 x.2 = .error m) → ∃ m, setupList inp w t index l done = .error m) ∧
    ((∀ x ∈ l, ∃ ids, channelPeers inp t index x.1 x.2 = .ok ids) → (∀ n ids, w.channel n ids = none) →
      ∃ r, setupList inp w t index l done = .ok r) ∧
    ((∃ r, setupList inp w t index l done = .ok r) ∨ ∃ m, setupList inp w t index l done = .error m) := by
  induction l generalizing done with
  | nil => exact ⟨(by rintro ⟨x, hx, _⟩; cases hx), fun _ _ => ⟨_, rfl⟩, Or.inl ⟨_, rfl⟩⟩
  | cons x l ih =>
    obtain ⟨s, c⟩ := x
    rw [setupList]
    rcases h (s, c) (by simp) with ⟨ids, e⟩ | ⟨m, e⟩
    · dsimp only at e
      rw [e]
      simp only [Outcome.bind]
      cases hw : w.channel done.length ids with
      | some m =>
        exact ⟨fun _ => ⟨m, rfl⟩, (fun _ hf => by rw [hf] at hw; cases hw), Or.inr ⟨m, rfl⟩⟩
      | none =>
        obtain ⟨i1, i2, i3⟩ := ih (done ++ [ids]) (fun x hx => h x (List.mem_cons_of_mem _ hx))
        refine ⟨?_, fun ha hf => i2 (fun x hx => ha x (List.mem_cons_of_mem _ hx)) hf, i3⟩
        rintro ⟨y, hy, m, hm⟩
        rcases List.mem_cons.1 hy with rfl | hy
        · dsimp only at hm; rw [e] at hm; cases hm
        · exact i1 ⟨y, hy, m, hm⟩
    · dsimp only at e
      rw [e]
      refine ⟨fun _ => ⟨m, rfl⟩, fun ha _ => ?_, Or.inr ⟨m, rfl⟩⟩
      obtain ⟨ids, hi⟩ := ha (s, c) (by simp)
      dsimp only at hi
      rw [e] at hi
      cases hi

/-! ### the peers of one channel -/

theorem row_of {inp : Input} {myName : Str} {mine : Int} {done : List (Str × Endpoint)} {st : Filling}
    (hf : Filled inp myName mine done st) {k : Nat} {s : ServiceSpec} (hs : inp.specs[k]? = some s) :
    ∃ row, st.peers[k]? = some row ∧ row.length = (s.count.getD 0).toNat := by
  have h := congrArg (fun l => l[k]?) hf.shape
  simp only [List.getElem?_map, hs, Option.map_some] at h
  cases hr : st.peers[k]? with
  | none => rw [hr] at h; cases h
  | some row => rw [hr] at h; exact ⟨row, rfl, by simpa using h⟩

theorem index_of {inp : Input} (h : Introduced inp) {k : Nat} {s : ServiceSpec} (hs : inp.specs[k]? = some s) :
    (enumerateServiceTypes inp.specs).find s.name = some (k : Int) := by
  obtain ⟨hk, rfl⟩ := List.getElem?_eq_some_iff.1 hs
  have hi := (C09_service_indices inp.specs h.distinct).2.1 k (by simpa using hk)
  simpa using hi

theorem nodup_keys {inp : Input} (h : Introduced inp) : (inp.endpoints.map Prod.fst).Nodup := by
  obtain ⟨ids, names, i1, i2, i3, _⟩ := C09_instance_ids inp.specs h.accepted h.slashFree h.distinct
  obtain ⟨names', m1, m2⟩ := h.endpoints
  rw [i2] at m1
  cases m1
  exact m2.nodup_iff.2 i3

theorem mem_find {l : List (Str × Endpoint)} (hn : (l.map Prod.fst).Nodup) (name : Str) (e : Endpoint) :
    findEndpoint l name = some e ↔ (name, e) ∈ l := by
  unfold findEndpoint
  induction l with
  | nil => simp
  | cons x l ih =>
    rw [List.map_cons, List.nodup_cons] at hn
    rw [List.find?_cons]
    by_cases hx : x.1 = name
    · simp only [hx, decide_true, Option.map_some, Option.some.injEq, List.mem_cons]
      constructor
      · rintro rfl; left; rw [← hx]
      · rintro (h | h)
        · rw [← h]
        · exact absurd (List.mem_map.2 ⟨_, h, hx.symm⟩) hn.1
    · simp only [hx, decide_false, List.mem_cons]
      rw [ih hn.2]
      constructor
      · exact Or.inr
      · rintro (h | h)
        · rw [← h] at hx; exact absurd rfl hx
        · exact h

theorem endpoint_of {inp : Input} (h : Introduced inp) {k j : Nat} {name : Str} (hi : IsInstance inp k j name) :
    ∃ e, (name, e) ∈ inp.endpoints := by
  obtain ⟨s, hs, hj, hn⟩ := hi
  obtain ⟨hk, rfl⟩ := List.getElem?_eq_some_iff.1 hs
  obtain ⟨ids, names, i1, i2, i3, _⟩ := C09_instance_ids inp.specs h.accepted h.slashFree h.distinct
  obtain ⟨names', m1, m2⟩ := h.endpoints
  rw [i2] at m1
  cases m1
  have : name ∈ names := by
    unfold allServiceInstances at i2
    cases hL : inp.specs.mapM serviceInstanceNames with
    | none => rw [hL] at i2; cases i2
    | some L =>
      rw [hL] at i2
      cases i2
      obtain ⟨e1, e2⟩ := mapM_mem hL
      have hf := e2 k hk (by omega)
      unfold serviceInstanceNames at hf
      obtain ⟨f1, f2⟩ := mapM_mem hf
      have hj' : j < (List.range (inp.specs[k]).getCount.toNat).length := by
        have : (inp.specs[k]).getCount = (inp.specs[k]).count.getD 0 := rfl
        simp
        omega
      have hg := f2 j hj' (by omega)
      simp only [List.getElem_range] at hg
      rw [hn] at hg
      have hkL : k < L.length := by omega
      exact List.mem_flatten.2 ⟨L[k], List.getElem_mem hkL, by rw [Option.some.inj hg]; exact List.getElem_mem _⟩
  have := m2.mem_iff.2 this
  rw [List.mem_map] at this
  obtain ⟨⟨a, e⟩, ha, hb⟩ := this
  dsimp only at hb
  subst hb
  exact ⟨e, ha⟩

theorem channelPeers_ok {inp : Input} (h : Introduced inp) {myName : Str} {mine : Int} {st : Filling}
    (hf : Filled inp myName mine inp.endpoints st) {k : Nat} {s : ServiceSpec} (hs : inp.specs[k]? = some s)
    {c : Channel} {ids : List Int}
    (hc : channelPeers inp st.peers (enumerateServiceTypes inp.specs) s c = .ok ids) :
    ids ≠ [] ∧ ids.Pairwise (· < ·) ∧ (∀ i ∈ c.selected, 0 ≤ i ∧ i < s.count.getD 0) ∧
    ∀ x, x ∈ ids ↔ ∃ j, InChannel inp s c j ∧ rpcPeer st.peers k j = some x := by
  obtain ⟨row, hrow, hlen⟩ := row_of hf hs
  have hslot : ∀ j : Nat, rpcPeer st.peers k j = (row[j]?).map Peer.pdId := by
    intro j
    unfold rpcPeer
    rw [slot_nat, hrow]
    rfl
  unfold channelPeers at hc
  simp only [index_of h hs, Option.getD_some, Int.toNat_natCast, hrow] at hc
  obtain ⟨a, ha, hc⟩ := bind_ok hc
  obtain ⟨b, hb, hc⟩ := bind_ok hc
  obtain ⟨a1, a2⟩ := selectedPeers_ok ha
  have hcount : s.getCount = s.count.getD 0 := rfl
  rw [hcount] at a1
  have hids : ids = sortUnique (a ++ b) ∧ ids ≠ [] := by
    cases hsu : sortUnique (a ++ b) with
    | nil => rw [hsu] at hc; cases hc
    | cons y ys => rw [hsu] at hc; cases hc; exact ⟨rfl, by simp⟩
  refine ⟨hids.2, by rw [hids.1]; exact sortUnique_sorted _, a1, ?_⟩
  intro x
  rw [hids.1, mem_sortUnique, List.mem_append, a2]
  have hb' : x ∈ b ↔ ∃ cl, c.constraints = some cl ∧ ∃ j : Nat, j < s.getCount.toNat ∧
      (∃ name e, getInstanceName s j = some name ∧ findEndpoint inp.endpoints name = some e ∧
        SatisfiesAll e.attributes cl) ∧ ∃ p, row[j]? = some p ∧ p.pdId = x := by
    unfold constrainedPeers at hb
    cases hcc : c.constraints with
    | none => rw [hcc] at hb; cases hb; simp
    | some cl =>
      rw [hcc] at hb
      rw [matchingPeers_ok hb]
      simp
  rw [hb']
  constructor
  · rintro (⟨j, b1, p, b2, b3⟩ | ⟨cl, c1, j, b1, ⟨name, e, d1, d2, d3⟩, p, b2, b3⟩)
    · exact ⟨j, ⟨(a1 _ b1).2, Or.inl b1⟩, by rw [hslot, b2]; simp [b3]⟩
    · refine ⟨j, ⟨by omega, Or.inr ⟨cl, name, e, c1, d1, ?_, d3⟩⟩, by rw [hslot, b2]; simp [b3]⟩
      exact (mem_find (nodup_keys h) name e).1 d2
  · rintro ⟨j, ⟨b1, b2⟩, b3⟩
    rw [hslot] at b3
    obtain ⟨p, b4, b5⟩ := Option.map_eq_some_iff.1 b3
    rcases b2 with b2 | ⟨cl, name, e, c1, d1, d2, d3⟩
    · exact Or.inl ⟨j, b2, p, b4, b5⟩
    · exact Or.inr ⟨cl, c1, j, by omega, ⟨name, e, d1, (mem_find (nodup_keys h) name e).2 d2, d3⟩, p, b4, b5⟩

theorem channelPeers_total {inp : Input} (h : Introduced inp) {myName : Str} {mine : Int} {st : Filling}
    (hf : Filled inp myName mine inp.endpoints st) {k : Nat} {s : ServiceSpec} (hs : inp.specs[k]? = some s)
    {c : Channel} (hsel : ∀ i ∈ c.selected, 0 ≤ i) (hm : ChannelModuliOk c) :
    ((∀ i ∈ c.selected, i < s.count.getD 0) → (∃ j, InChannel inp s c j) →
      ∃ ids, channelPeers inp st.peers (enumerateServiceTypes inp.specs) s c = .ok ids) ∧
    ((∃ i ∈ c.selected, i ≥ s.count.getD 0) ∨ (∀ j, ¬ InChannel inp s c j) →
      ∃ m, channelPeers inp st.peers (enumerateServiceTypes inp.specs) s c = .error m) := by
  obtain ⟨row, hrow, hlen⟩ := row_of hf hs
  have hcount : s.getCount = s.count.getD 0 := rfl
  have htot : (∃ ids, channelPeers inp st.peers (enumerateServiceTypes inp.specs) s c = .ok ids) ∨
      (((∃ i ∈ c.selected, i ≥ s.count.getD 0) ∨ (∀ j, ¬ InChannel inp s c j)) ∧
        ∃ m, channelPeers inp st.peers (enumerateServiceTypes inp.specs) s c = .error m) := by
    unfold channelPeers
    simp only [index_of h hs, Option.getD_some, Int.toNat_natCast, hrow]
    rcases selectedPeers_total (count := s.getCount) (row := row) hlen hsel with ⟨a, ha⟩ | ⟨hex, m, ha⟩
    · rw [ha]
      simp only [Outcome.bind]
      have hb : ∃ b, constrainedPeers inp s row c = .ok b := by
        unfold constrainedPeers
        cases hcc : c.constraints with
        | none => exact ⟨_, rfl⟩
        | some cl =>
          apply matchingPeers_total (hm cl hcc)
          · rw [hlen, hcount]; omega
          · intro j hj
            obtain ⟨hk, rfl⟩ := List.getElem?_eq_some_iff.1 hs
            have hj' : (j : Int) < (inp.specs[k]).count.getD 0 := by omega
            obtain ⟨_, _, _, _, _, _, _, _, _, i8⟩ := C09_instance_ids inp.specs h.accepted h.slashFree h.distinct
            obtain ⟨nm, n1, _⟩ := i8 k hk j hj'
            obtain ⟨e, he⟩ := endpoint_of h ⟨_, hs, hj', n1⟩
            exact ⟨nm, e, n1, (mem_find (nodup_keys h) nm e).2 he⟩
      obtain ⟨b, hb⟩ := hb
      rw [hb]
      simp only []
      cases hsu : sortUnique (a ++ b) with
      | cons y ys => exact Or.inl ⟨_, rfl⟩
      | nil =>
        refine Or.inr ⟨Or.inr ?_, _, rfl⟩
        have hnil : ∀ x, x ∉ a ∧ x ∉ b := by
          intro x
          have := mem_sortUnique x (a ++ b)
          rw [hsu] at this
          simp at this
          exact this
        rintro j ⟨j1, j2⟩
        have hj : j < row.length := by omega
        rcases j2 with j2 | ⟨cl, name, e, c1, d1, d2, d3⟩
        · exact (hnil _).1 (((selectedPeers_ok ha).2 _).2 ⟨j, j2, _, List.getElem?_eq_getElem hj, rfl⟩)
        · unfold constrainedPeers at hb
          rw [c1] at hb
          exact (hnil _).2 ((matchingPeers_ok hb _).2 ⟨j, by omega, by omega,
            ⟨name, e, d1, (mem_find (nodup_keys h) name e).2 d2, d3⟩, _, List.getElem?_eq_getElem hj, rfl⟩)
    · rw [ha]
      exact Or.inr ⟨Or.inl hex, m, rfl⟩
  constructor
  · intro h1 ⟨j, hj⟩
    rcases htot with ht | ⟨⟨i, hi, hi'⟩ | hn, _⟩
    · exact ht
    · exact absurd (h1 i hi) (by omega)
    · exact absurd hj (hn j)
  · intro hbad
    rcases htot with ⟨ids, ht⟩ | ⟨_, ht⟩
    · obtain ⟨n1, _, n3, n4⟩ := channelPeers_ok h hf hs ht
      rcases hbad with ⟨i, hi, hi'⟩ | hn
      · have := (n3 i hi).2; omega
      · obtain ⟨x, hx⟩ := List.exists_mem_of_ne_nil _ n1
        obtain ⟨j, hj, _⟩ := (n4 x).1 hx
        exact absurd hj (hn j)
    · exact ht

end Distbench.Peers
