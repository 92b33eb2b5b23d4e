import Verif.Spec.Peers
import Verif.Props.Services

/-! Lemmas about the table of peers. -/

namespace Distbench.Peers
open Services Spec

theorem slot_nat (t : Table) (k j : Nat) : slot t k j = (t[k]?).bind (·[j]?) := by
  unfold slot
  rw [if_neg (by omega)]
  simp only [Int.toNat_natCast]
  cases t[k]? <;> rfl

theorem slot_set_self {t : Table} {k j : Nat} {p old : Peer} (h : slot t k j = some old) :
    slot (setSlot t k j p) k j = some p := by
  rw [slot_nat] at h ⊢
  cases hk : t[k]? with
  | none => rw [hk] at h; cases h
  | some row =>
    rw [hk] at h
    simp only [Option.bind_some] at h
    have hk' : k < t.length := (List.getElem?_eq_some_iff.1 hk).1
    have hj' : j < row.length := (List.getElem?_eq_some_iff.1 h).1
    unfold setSlot
    simp only [Int.toNat_natCast, hk, Option.getD_some]
    rw [List.getElem?_set_self hk']
    simp only [Option.bind_some]
    rw [List.getElem?_set_self hj']

theorem slot_set_ne {t : Table} {k j k' j' : Nat} (p : Peer) (h : ¬ (k' = k ∧ j' = j)) :
    slot (setSlot t k j p) k' j' = slot t k' j' := by
  rw [slot_nat, slot_nat]
  unfold setSlot
  simp only [Int.toNat_natCast]
  by_cases hk : k' = k
  · subst hk
    have hj : j' ≠ j := fun e => h ⟨rfl, e⟩
    by_cases hl : k' < t.length
    · rw [List.getElem?_set_self hl, List.getElem?_eq_getElem hl]
      simp only [Option.bind_some, Option.getD_some]
      rw [List.getElem?_set_ne (fun e => hj e.symm)]
    · rw [List.getElem?_eq_none (by simp; omega), List.getElem?_eq_none (by omega)]
  · rw [List.getElem?_set_ne (fun e => hk e.symm)]

theorem flatten_split {t : Table} {k j : Nat} {old : Peer} (p : Peer) (h : slot t k j = some old) :
    ∃ l1 l2, t.flatten = l1 ++ old :: l2 ∧ (setSlot t k j p).flatten = l1 ++ p :: l2 := by
  rw [slot_nat] at h
  cases hk : t[k]? with
  | none => rw [hk] at h; cases h
  | some row =>
    rw [hk] at h
    simp only [Option.bind_some] at h
    obtain ⟨hk', rfl⟩ := List.getElem?_eq_some_iff.1 hk
    obtain ⟨hj', rfl⟩ := List.getElem?_eq_some_iff.1 h
    refine ⟨(t.take k).flatten ++ t[k].take j, t[k].drop (j + 1) ++ (t.drop (k + 1)).flatten, ?_, ?_⟩
    · conv => lhs; rw [← List.take_append_drop k t, ← List.getElem_cons_drop hk']
      rw [List.flatten_append, List.flatten_cons]
      have e : t[k] = t[k].take j ++ t[k][j] :: t[k].drop (j + 1) := by
        rw [List.getElem_cons_drop hj', List.take_append_drop]
      rw [List.append_assoc]
      congr 1
      conv => lhs; lhs; rw [e]
      rw [List.append_assoc]
      rfl
    · unfold setSlot
      simp only [Int.toNat_natCast, hk, Option.getD_some]
      rw [List.set_eq_take_append_cons_drop, if_pos hk', List.flatten_append, List.flatten_cons,
        List.set_eq_take_append_cons_drop, if_pos hj']
      simp [List.append_assoc]

theorem shape_set {t : Table} (k j : Nat) (p : Peer) : (setSlot t k j p).map List.length = t.map List.length := by
  unfold setSlot
  simp only [Int.toNat_natCast]
  apply List.ext_getElem
  · simp
  · intro n h1 h2
    simp only [List.length_map, List.length_set] at h1 h2
    by_cases hn : k = n
    · subst hn
      simp [List.getElem?_eq_getElem h2]
    · simp [List.getElem_set_ne hn]

/-! ### where an instance belongs -/

theorem mapM_mem {α β : Type} {f : α → Option β} {l : List α} {L : List β} (h : l.mapM f = some L) :
    L.length = l.length ∧ ∀ i (hi : i < l.length) (hi' : i < L.length), f l[i] = some L[i] := by
  induction l generalizing L with
  | nil => simp at h; subst h; simp
  | cons a l ih =>
    rw [List.mapM_cons] at h
    cases ha : f a with
    | none => rw [ha] at h; cases h
    | some b =>
      rw [ha] at h
      cases hl : l.mapM f with
      | none => rw [hl] at h; cases h
      | some L' =>
        rw [hl] at h
        cases h
        obtain ⟨h1, h2⟩ := ih hl
        refine ⟨by simp [h1], ?_⟩
        intro i hi hi'
        cases i with
        | zero => simpa using ha
        | succ i => simpa using h2 i (by simpa using hi) (by simpa using hi')

theorem canon {inp : Input} (h : Introduced inp) {s : ServiceSpec} (hs : s ∈ inp.specs) : Canon s := by
  obtain ⟨raw, h1, h2⟩ := h.accepted s hs
  exact canon_of_ok h1 h2

theorem instance_of_name {inp : Input} {names : List Str} (hn : allServiceInstances inp.specs = some names)
    {name : Str} (h : name ∈ names) : ∃ k j, IsInstance inp k j name := by
  unfold allServiceInstances at hn
  cases hL : inp.specs.mapM serviceInstanceNames with
  | none => rw [hL] at hn; cases hn
  | some L =>
    rw [hL] at hn
    simp only [Option.map_some, Option.some.injEq] at hn
    subst hn
    obtain ⟨l, hl, hm⟩ := List.mem_flatten.1 h
    obtain ⟨k, hk, rfl⟩ := List.mem_iff_getElem.1 hl
    obtain ⟨e1, e2⟩ := mapM_mem hL
    have hk' : k < inp.specs.length := by omega
    have hf := e2 k hk' hk
    unfold serviceInstanceNames at hf
    obtain ⟨f1, f2⟩ := mapM_mem hf
    obtain ⟨j, hj, rfl⟩ := List.mem_iff_getElem.1 hm
    have hj' : j < (List.range (inp.specs[k]).getCount.toNat).length := by omega
    have hg := f2 j hj' hj
    simp only [List.getElem_range] at hg
    refine ⟨k, j, inp.specs[k], List.getElem?_eq_getElem hk', ?_, hg⟩
    simp only [List.length_range] at hj'
    have : (inp.specs[k]).getCount = (inp.specs[k]).count.getD 0 := rfl
    omega

theorem instance_unique {inp : Input} (h : Introduced inp) {k j k' j' : Nat} {name : Str}
    (h1 : IsInstance inp k j name) (h2 : IsInstance inp k' j' name) : k = k' ∧ j = j' := by
  obtain ⟨s, hs, hj, hn⟩ := h1
  obtain ⟨s', hs', hj', hn'⟩ := h2
  obtain ⟨hk, rfl⟩ := List.getElem?_eq_some_iff.1 hs
  obtain ⟨hk', rfl⟩ := List.getElem?_eq_some_iff.1 hs'
  obtain ⟨raw, r1, r2⟩ := h.accepted _ (List.getElem_mem hk)
  obtain ⟨raw', r1', r2'⟩ := h.accepted _ (List.getElem_mem hk')
  obtain ⟨u1, u2⟩ := C07_names_unique raw raw' _ _ r1 r1' r2 r2' (h.slashFree _ (List.getElem_mem hk))
    (h.slashFree _ (List.getElem_mem hk')) j j' (by omega) hj (by omega) hj' (by rw [hn, hn'])
  have hkk : k = k' := by
    have hd := h.distinct
    rw [List.nodup_iff_pairwise_ne, List.pairwise_map] at hd
    rcases Nat.lt_trichotomy k k' with hl | hl | hl
    · exact absurd u1 (List.pairwise_iff_getElem.1 hd k k' hk hk' hl)
    · exact hl
    · exact absurd u1.symm (List.pairwise_iff_getElem.1 hd k' k hk' hk hl)
  subst hkk
  have := u2 rfl
  exact ⟨rfl, by omega⟩

/-- Where the code files the endpoint with the name of an instance. -/
theorem locate {inp : Input} (h : Introduced inp) {k j : Nat} {s : ServiceSpec} {name : Str} {ids : NameMap}
    (hs : inp.specs[k]? = some s) (hj : (j : Int) < s.count.getD 0) (hn : getInstanceName s j = some name)
    (hids : enumerateServiceInstanceIds inp.specs = some ids) :
    ids.find name = some (globalNumber inp k j) ∧ '/' ∈ name ∧ name.takeWhile (· ≠ '/') = s.name ∧
    (enumerateServiceTypes inp.specs).find s.name = some (k : Int) ∧
    ∃ g, getGridIndexFromName name = .ok g ∧ getInstanceFromGridIndex s g = some (j : Int) := by
  obtain ⟨hk, rfl⟩ := List.getElem?_eq_some_iff.1 hs
  have hm := List.getElem_mem hk
  have hc := canon h hm
  have hsl := h.slashFree _ hm
  obtain ⟨table, names, t1, t2, _, _, _, _, _, t8⟩ := C09_instance_ids inp.specs h.accepted h.slashFree h.distinct
  rw [hids] at t1
  cases t1
  obtain ⟨nm, n1, n2⟩ := t8 k hk j hj
  rw [hn] at n1
  cases n1
  obtain ⟨nm, g, rest, r1, r2, r3, r4⟩ := name_roundtrip hc hsl (i := (j : Int)) (by omega) hj
  rw [hn] at r1
  cases r1
  obtain ⟨g', q1, _, q3⟩ := getServiceIndex_spec hc (i := (j : Int)) (by omega) hj
  rw [r2] at q1
  cases q1
  refine ⟨n2, by rw [r4]; simp, ?_, ?_, g, r3, q3⟩
  · rw [r4, List.takeWhile_append_of_pos]
    · simp
    · intro c hcm
      simp only [decide_eq_true_eq]
      rintro rfl
      exact hsl hcm
  · have hi := (C09_service_indices inp.specs h.distinct).2.1 k (by simpa using hk)
    simpa using hi

/-! ### filling the table -/

/-- Whether the endpoint belongs to a service that the engine sends RPCs to. -/
def isDep (inp : Input) (e : Str × Endpoint) : Bool := e.1.takeWhile (· ≠ '/') ∈ inp.dependent

/-- What a slot holds once its endpoint, at position `p` of those processed, has been processed. -/
def filledSlot (inp : Input) (done : List (Str × Endpoint)) (p : Nat) (e : Str × Endpoint) (number : Int) : Peer :=
  if isDep inp e then
    { logName := e.1, traceId := some number, address := e.2.address, pdId := ((done.take p).filter (isDep inp)).length }
  else { logName := e.1, traceId := some number }

structure Filled (inp : Input) (myName : Str) (mine : Int) (done : List (Str × Endpoint)) (st : Filling) : Prop where
  num : st.numTargets = (done.filter (isDep inp)).length
  shape : st.peers.map List.length = inp.specs.map fun s => (s.count.getD 0).toNat
  empty : ∀ k j name, IsInstance inp k j name → name ∉ done.map Prod.fst → slot st.peers k j = some {}
  full : ∀ k j name, IsInstance inp k j name → ∀ p e, done[p]? = some e → e.1 = name →
    slot st.peers k j = some (filledSlot inp done p e (globalNumber inp k j))
  targets : ((targets st.peers).map Peer.pdId).Perm ((List.range st.numTargets).map fun n : Nat => (n : Int))
  trace : myName ∈ done.map Prod.fst → st.traceId = mine

theorem filled_step {inp : Input} (h : Introduced inp) {ids : NameMap} {myName : Str} {mine : Int}
    (hids : enumerateServiceInstanceIds inp.specs = some ids) (hmine : ids.find myName = some mine)
    {done : List (Str × Endpoint)} {st : Filling} {e : Str × Endpoint} {k j : Nat}
    (hi : IsInstance inp k j e.1) (he : e.1 ∉ done.map Prod.fst) (hadd : e.2.address ≠ [])
    (hf : Filled inp myName mine done st) :
    ∃ st', addEndpoint inp ids (enumerateServiceTypes inp.specs) myName e st = .ok st' ∧
      Filled inp myName mine (done ++ [e]) st' := by
  obtain ⟨s, hs, hj, hn⟩ := id hi
  obtain ⟨l1, l2, l3, l4, g, l5, l6⟩ := locate h hs hj hn hids
  have hold := hf.empty k j e.1 hi he
  have hdep : isDep inp e = true ↔ s.name ∈ inp.dependent := by
    unfold isDep
    rw [l3]
    simp
  have hcomp : ∀ p, slot (setSlot st.peers k j p) k j = some p := fun p => slot_set_self hold
  have ht : ∀ p : Peer, p.address = [] → (targets (setSlot st.peers k j p)).map Peer.pdId = (targets st.peers).map Peer.pdId := by
    intro p hp
    obtain ⟨a, b, s1, s2⟩ := flatten_split p hold
    unfold targets
    rw [s1, s2]
    simp [List.filter_append, List.filter_cons, hp]
  have ht' : ∀ p : Peer, p.address ≠ [] →
      ((targets (setSlot st.peers k j p)).map Peer.pdId).Perm (p.pdId :: (targets st.peers).map Peer.pdId) := by
    intro p hp
    obtain ⟨a, b, s1, s2⟩ := flatten_split p hold
    unfold targets
    rw [s1, s2]
    have e1 : (decide (p.address ≠ [])) = true := by simpa using hp
    have e2 : ¬ (decide (({} : Peer).address ≠ [])) = true := by decide
    rw [List.filter_append, List.filter_append, List.filter_cons, List.filter_cons, if_pos e1, if_neg e2,
      List.map_append, List.map_append, List.map_cons]
    exact List.perm_middle
  have htrace : ∀ tr : Int, tr = (if e.1 = myName then globalNumber inp k j else st.traceId) →
      myName ∈ (done ++ [e]).map Prod.fst → tr = mine := by
    intro tr htr hm
    rw [htr]
    by_cases hme : e.1 = myName
    · rw [if_pos hme]
      rw [hme] at l1
      rw [l1] at hmine
      exact Option.some.inj hmine
    · rw [if_neg hme]
      apply hf.trace
      simp at hm
      rcases hm with ⟨x, hx⟩ | hx
      · exact List.mem_map.2 ⟨_, hx, rfl⟩
      · exact absurd hx.symm hme
  have hslots : ∀ (peers : Table), peers = setSlot st.peers k j (filledSlot inp done done.length e (globalNumber inp k j)) →
      (∀ k' j' name, IsInstance inp k' j' name → name ∉ (done ++ [e]).map Prod.fst → slot peers k' j' = some {}) ∧
      (∀ k' j' name, IsInstance inp k' j' name → ∀ p x, (done ++ [e])[p]? = some x → x.1 = name →
        slot peers k' j' = some (filledSlot inp (done ++ [e]) p x (globalNumber inp k' j'))) := by
    rintro peers rfl
    have hfs : ∀ p x n, p ≤ done.length → filledSlot inp (done ++ [e]) p x n = filledSlot inp done p x n := by
      intro p x n hp
      unfold filledSlot
      rw [List.take_append_of_le_length hp]
    constructor
    · intro k' j' name hi' hnot
      have hne : name ≠ e.1 := by rintro rfl; exact hnot (by simp)
      have : ¬ (k' = k ∧ j' = j) := by
        rintro ⟨rfl, rfl⟩
        obtain ⟨s', a1, a2, a3⟩ := hi'
        rw [hs] at a1
        cases a1
        rw [hn] at a3
        exact hne (Option.some.inj a3).symm
      rw [slot_set_ne _ this]
      exact hf.empty k' j' name hi' (fun hm => hnot (by rw [List.map_append]; exact List.mem_append_left _ hm))
    · intro k' j' name hi' p x hx hxn
      by_cases hp : p < done.length
      · rw [List.getElem?_append_left hp] at hx
        have hne : name ≠ e.1 := by
          rintro rfl
          exact he (List.mem_map.2 ⟨x, List.mem_of_getElem? hx, hxn⟩)
        have : ¬ (k' = k ∧ j' = j) := by
          rintro ⟨rfl, rfl⟩
          obtain ⟨s', a1, a2, a3⟩ := hi'
          rw [hs] at a1
          cases a1
          rw [hn] at a3
          exact hne (Option.some.inj a3).symm
        rw [slot_set_ne _ this, hfs p x _ (by omega)]
        exact hf.full k' j' name hi' p x hx hxn
      · have hp' : p = done.length := by
          have := (List.getElem?_eq_some_iff.1 hx).1
          simp at this
          omega
        subst hp'
        simp at hx
        subst hx
        subst hxn
        obtain ⟨rfl, rfl⟩ := instance_unique h hi hi'
        rw [hcomp, hfs _ _ _ (Nat.le_refl _)]
  unfold addEndpoint
  rw [l1]
  dsimp only
  rw [if_neg (by simpa using l2), l3, l4]
  simp only [Option.getD_some, Int.toNat_natCast]
  rw [hs]
  dsimp only
  rw [l5]
  dsimp only
  rw [l6]
  dsimp only
  rw [hold]
  dsimp only
  by_cases hd : s.name ∈ inp.dependent
  · rw [if_pos hd]
    have hd' : isDep inp e = true := hdep.2 hd
    have hfs : filledSlot inp done done.length e (globalNumber inp k j) =
        { logName := e.1, traceId := some (globalNumber inp k j), address := e.2.address, pdId := (st.numTargets : Int) } := by
      unfold filledSlot
      rw [if_pos hd', List.take_length, ← hf.num]
    obtain ⟨s1, s2⟩ := hslots _ rfl
    refine ⟨_, rfl, ?_, ?_, ?_, ?_, ?_, ?_⟩
    · dsimp only
      rw [hf.num]
      simp [List.filter_append, hd']
    · dsimp only
      rw [shape_set, hf.shape]
    · dsimp only
      rw [← hfs]
      exact s1
    · dsimp only
      rw [← hfs]
      exact s2
    · dsimp only
      refine (ht' _ hadd).trans ?_
      rw [List.range_succ, List.map_append]
      exact ((hf.targets.cons _).trans (List.perm_append_singleton _ _).symm)
    · exact htrace _ rfl
  · rw [if_neg hd]
    have hd' : isDep inp e = false := by
      cases hx : isDep inp e with
      | false => rfl
      | true => exact absurd (hdep.1 hx) hd
    have hfs : filledSlot inp done done.length e (globalNumber inp k j) =
        { logName := e.1, traceId := some (globalNumber inp k j) } := by
      unfold filledSlot
      rw [hd']
      rfl
    obtain ⟨s1, s2⟩ := hslots _ rfl
    refine ⟨_, rfl, ?_, ?_, ?_, ?_, ?_, ?_⟩
    · dsimp only
      rw [hf.num]
      simp [List.filter_append, hd']
    · dsimp only
      rw [shape_set, hf.shape]
    · dsimp only
      rw [← hfs]
      exact s1
    · dsimp only
      rw [← hfs]
      exact s2
    · dsimp only
      rw [ht _ rfl]
      exact hf.targets
    · exact htrace _ rfl

theorem filled_all {inp : Input} (h : Introduced inp) {ids : NameMap} {myName : Str} {mine : Int}
    (hids : enumerateServiceInstanceIds inp.specs = some ids) (hmine : ids.find myName = some mine) :
    ∀ (rest done : List (Str × Endpoint)) (st : Filling), (∀ e ∈ rest, ∃ k j, IsInstance inp k j e.1) →
      ((done ++ rest).map Prod.fst).Nodup → (∀ e ∈ rest, e.2.address ≠ []) → Filled inp myName mine done st →
      ∃ st', addEndpoints inp ids (enumerateServiceTypes inp.specs) myName rest st = .ok st' ∧
        Filled inp myName mine (done ++ rest) st' := by
  intro rest
  induction rest with
  | nil => intro done st _ _ _ hf; exact ⟨st, rfl, by simpa using hf⟩
  | cons e rest ih =>
    intro done st hi hnd ha hf
    obtain ⟨k, j, hkj⟩ := hi e (by simp)
    have he : e.1 ∉ done.map Prod.fst := by
      intro hm
      rw [List.map_append, List.nodup_append] at hnd
      exact hnd.2.2 e.1 hm e.1 (by simp) rfl
    obtain ⟨st1, s1, s2⟩ := filled_step h hids hmine hkj he (ha e (by simp)) hf
    obtain ⟨st2, t1, t2⟩ := ih (done ++ [e]) st1 (fun x hx => hi x (by simp [hx])) (by simpa using hnd)
      (fun x hx => ha x (by simp [hx])) s2
    refine ⟨st2, ?_, by simpa using t2⟩
    rw [addEndpoints, s1]
    exact t1

theorem emptyTable_ok {inp : Input} (h : Introduced inp) :
    emptyTable inp.specs = .ok (inp.specs.map fun s => List.replicate s.getCount.toNat {}) := by
  unfold emptyTable
  rw [if_pos]
  rw [List.all_eq_true]
  intro s hs
  exact decide_eq_true (h.counts s hs)

/-- The table is filled without a failed check, and holds what it should. -/
theorem fill {inp : Input} (h : Introduced inp) : ∃ st mine myName,
    fillTable inp = .ok st ∧ Filled inp myName mine inp.endpoints st ∧
    ∃ k j, IsInstance inp k j myName ∧ mine = globalNumber inp k j ∧ (j : Int) = inp.instance_ ∧
      ∃ s, inp.specs[k]? = some s ∧ s.name = inp.serviceName := by
  obtain ⟨ids, names, i1, i2, i3, _, _, _, _, i8⟩ := C09_instance_ids inp.specs h.accepted h.slashFree h.distinct
  obtain ⟨s, hs, hname, hi0, hi1⟩ := h.self
  obtain ⟨k, hk, rfl⟩ := List.mem_iff_getElem.1 hs
  obtain ⟨j, hj⟩ : ∃ j : Nat, (j : Int) = inp.instance_ := ⟨inp.instance_.toNat, by omega⟩
  obtain ⟨nm, n1, n2⟩ := i8 k hk j (by omega)
  have hidx : (enumerateServiceTypes inp.specs).find inp.serviceName = some (k : Int) := by
    have hi := (C09_service_indices inp.specs h.distinct).2.1 k (by simpa using hk)
    rw [← hname]
    simpa using hi
  have hin : IsInstance inp k j nm := ⟨_, List.getElem?_eq_getElem hk, by omega, n1⟩
  obtain ⟨names', m1, m2⟩ := h.endpoints
  rw [i2] at m1
  cases m1
  have hstart : Filled inp nm (globalNumber inp k j) []
      { peers := inp.specs.map fun s => List.replicate s.getCount.toNat {} } := by
    refine ⟨rfl, ?_, ?_, ?_, ?_, ?_⟩
    · simp [ServiceSpec.getCount]
    · intro k' j' name ⟨s', a1, a2, a3⟩ _
      rw [slot_nat]
      simp only [List.getElem?_map, a1, Option.map_some, Option.bind_some]
      rw [List.getElem?_replicate, if_pos]
      have : s'.getCount = s'.count.getD 0 := rfl
      omega
    · intro k' j' name _ p e hp
      simp at hp
    · have : (targets (inp.specs.map fun s => List.replicate s.getCount.toNat ({} : Peer))) = [] := by
        unfold targets
        rw [List.filter_eq_nil_iff]
        intro a ha
        rw [List.mem_flatten] at ha
        obtain ⟨l, hl, ha⟩ := ha
        rw [List.mem_map] at hl
        obtain ⟨s, _, rfl⟩ := hl
        rw [(List.mem_replicate.1 ha).2]
        simp
      rw [this]
      simp
    · simp
  obtain ⟨st, f1, f2⟩ := filled_all h i1 (mine := globalNumber inp k j) n2 inp.endpoints []
    { peers := inp.specs.map fun s => List.replicate s.getCount.toNat {} }
    (fun e he => instance_of_name i2 (m2.mem_iff.1 (List.mem_map.2 ⟨e, he, rfl⟩)))
    (by simpa using m2.nodup_iff.2 i3) h.addresses hstart
  refine ⟨st, globalNumber inp k j, nm, ?_, by simpa using f2, k, j, hin, rfl, hj, _, List.getElem?_eq_getElem hk, hname⟩
  unfold fillTable
  rw [i1]
  dsimp only
  rw [emptyTable_ok h]
  simp only [Outcome.bind]
  rw [hidx]
  simp only [Option.getD_some, Int.toNat_natCast]
  rw [List.getElem?_eq_getElem hk]
  dsimp only
  rw [← hj, n1]
  exact f1

end Distbench.Peers
