import Verif.Model.Builder
import Verif.Lemmas.Tables
import Verif.Lemmas.Names

/-! Lemmas about the arrays of parameters and the numbers of the test builder. -/

namespace Distbench.Builder
open Services Tables

/-! ### arrays -/

theorem find_set (p : Params) (k v key : Str) :
    (p.set k v).find key = if k = key then some v else p.find key := by
  induction p with
  | nil => simp only [Params.set, Params.find]
  | cons x rest ih =>
    obtain ⟨a, b⟩ := x
    simp only [Params.set]
    by_cases ha : a = k
    · subst ha
      rw [if_pos rfl]
      simp only [Params.find]
      split <;> rfl
    · rw [if_neg ha]
      simp only [Params.find, ih]
      by_cases hb : a = key
      · rw [if_pos hb, if_pos hb, if_neg (fun h => ha (hb.trans h.symm))]
      · rw [if_neg hb, if_neg hb]

/-- The last value that a list of assignments gives to a key. -/
def lastValue (l : List (Str × Str)) (key : Str) : Option Str := (l.reverse.find? fun x => x.1 = key).map (·.2)

theorem find_setAll (l : List (Str × Str)) (p : Params) (key : Str) :
    (p.setAll l).find key = (lastValue l key).or (p.find key) := by
  induction l generalizing p with
  | nil => rfl
  | cons x rest ih =>
    obtain ⟨k, v⟩ := x
    rw [Params.setAll, ih, find_set]
    unfold lastValue
    rw [List.reverse_cons, List.find?_append]
    cases h : rest.reverse.find? fun x => x.1 = key with
    | some y => rfl
    | none =>
      by_cases hk : k = key
      · subst hk; simp
      · simp [hk]

theorem find_setDefault (p : Params) (k v : String) (hv : v ≠ "") (key : Str) :
    (setDefault p k v).find key =
      if k.toList = key then some ((p.find key).getD v.toList) else p.find key := by
  unfold setDefault
  cases h : p.find k.toList with
  | some w =>
    dsimp only
    by_cases hk : k.toList = key
    · subst hk; rw [if_pos rfl, h]; rfl
    · rw [if_neg hk]
  | none =>
    dsimp only
    rw [if_neg hv, find_set]
    by_cases hk : k.toList = key
    · subst hk; rw [if_pos rfl, if_pos rfl, h]; rfl
    · rw [if_neg hk, if_neg hk]

theorem setDefault_empty (p : Params) (k : String) : setDefault p k "" = p := by
  unfold setDefault
  cases p.find k.toList <;> rfl

/-- A key keeps the value that it has. -/
theorem keeps_setDefault {p : Params} {k v : String} {key w : Str} (h : p.find key = some w) :
    (setDefault p k v).find key = some w := by
  by_cases hv : v = ""
  · subst hv; rw [setDefault_empty]; exact h
  · rw [find_setDefault _ _ _ hv]
    split
    · rw [h]; rfl
    · exact h

theorem keeps_setDefaults {l : List (String × String)} {p : Params} {key w : Str}
    (h : p.find key = some w) : (setDefaults p l).find key = some w := by
  induction l generalizing p with
  | nil => exact h
  | cons x rest ih => exact ih (keeps_setDefault h)

theorem find_setDefaults_other {l : List (String × String)} {p : Params} {key : Str}
    (h : ∀ x ∈ l, x.1.toList ≠ key) : (setDefaults p l).find key = p.find key := by
  induction l generalizing p with
  | nil => rfl
  | cons x rest ih =>
    rw [setDefaults, ih fun y hy => h y (List.mem_cons_of_mem _ hy)]
    by_cases hv : x.2 = ""
    · rw [hv, setDefault_empty]
    · rw [find_setDefault _ _ _ hv, if_neg (h x List.mem_cons_self)]

/-- The value of a parameter that has a default. -/
theorem find_setDefaults {l : List (String × String)} {p : Params} {k v : String} (hm : (k, v) ∈ l)
    (hd : (l.map (·.1)).Nodup) (hv : v ≠ "") :
    (setDefaults p l).find k.toList = some ((p.find k.toList).getD v.toList) := by
  induction l generalizing p with
  | nil => cases hm
  | cons x rest ih =>
    rw [setDefaults]
    rw [List.map_cons, List.nodup_cons] at hd
    rcases List.mem_cons.1 hm with h | h
    · subst h
      rw [keeps_setDefaults]
      rw [find_setDefault _ _ _ hv, if_pos rfl]
    · rw [ih h hd.2]
      have hx : x.1.toList ≠ k.toList := fun he =>
        hd.1 (by rw [String.toList_inj.1 he]; exact List.mem_map.2 ⟨_, h, rfl⟩)
      by_cases hv' : x.2 = ""
      · rw [hv', setDefault_empty]
      · rw [find_setDefault _ _ _ hv', if_neg hx]

theorem find_none_keys {p : Params} {key : Str} (h : key ∉ p.map (·.1)) : p.find key = none := by
  induction p with
  | nil => rfl
  | cons x rest ih =>
    rw [List.map_cons, List.mem_cons, not_or] at h
    rw [Params.find, if_neg (fun he => h.1 he.symm)]
    exact ih h.2

theorem sameParams_iff {p q : Params} : sameParams p q = true ↔ ∀ key, p.find key = q.find key := by
  unfold sameParams
  rw [List.all_eq_true]
  constructor
  · intro h key
    by_cases hk : key ∈ (p ++ q).map (·.1)
    · obtain ⟨x, hx, rfl⟩ := List.mem_map.1 hk
      exact beq_iff_eq.1 (h x hx)
    · rw [List.map_append, List.mem_append, not_or] at hk
      rw [find_none_keys hk.1, find_none_keys hk.2]
  · intro h x _
    exact beq_iff_eq.2 (h x.1)

/-! Arrays with the same keys, in the same order, and the same values are the same. -/

theorem keys_set (p : Params) (k v : Str) :
    (p.set k v).map (·.1) = if k ∈ p.map (·.1) then p.map (·.1) else p.map (·.1) ++ [k] := by
  induction p with
  | nil => rfl
  | cons x rest ih =>
    obtain ⟨a, b⟩ := x
    rw [Params.set]
    by_cases ha : a = k
    · subst ha
      rw [if_pos rfl, if_pos (by simp)]
      rfl
    · rw [if_neg ha, List.map_cons, ih, List.map_cons]
      have : (k ∈ a :: rest.map (·.1)) ↔ k ∈ rest.map (·.1) := by
        rw [List.mem_cons]; exact ⟨fun h => h.resolve_left fun e => ha e.symm, Or.inr⟩
      by_cases hk : k ∈ rest.map (·.1)
      · rw [if_pos hk, if_pos (this.2 hk)]
      · rw [if_neg hk, if_neg (fun h => hk (this.1 h)), List.cons_append]

theorem nodup_set {p : Params} (h : (p.map (·.1)).Nodup) (k v : Str) : ((p.set k v).map (·.1)).Nodup := by
  rw [keys_set]
  split
  · exact h
  · rename_i hk
    rw [List.nodup_append]
    exact ⟨h, by simp, fun a ha b hb => by cases List.mem_singleton.1 hb; exact fun e => hk (e ▸ ha)⟩

theorem nodup_setAll {l : List (Str × Str)} {p : Params} (h : (p.map (·.1)).Nodup) :
    ((p.setAll l).map (·.1)).Nodup := by
  induction l generalizing p with
  | nil => exact h
  | cons x rest ih => exact ih (nodup_set h _ _)

theorem ext_params {p q : Params} (hk : p.map (·.1) = q.map (·.1)) (hd : (p.map (·.1)).Nodup)
    (h : ∀ key, p.find key = q.find key) : p = q := by
  induction p generalizing q with
  | nil =>
    cases q with
    | nil => rfl
    | cons y q => cases hk
  | cons x p ih =>
    cases q with
    | nil => cases hk
    | cons y q =>
      rw [List.map_cons, List.map_cons, List.cons.injEq] at hk
      rw [List.map_cons, List.nodup_cons] at hd
      have h1 := h x.1
      rw [Params.find, Params.find, if_pos rfl, if_pos hk.1.symm] at h1
      have hxy : x = y := Prod.ext hk.1 (Option.some.inj h1)
      subst hxy
      rw [ih hk.2 hd.2]
      intro key
      by_cases hx : x.1 = key
      · subst hx
        rw [find_none_keys hd.1, find_none_keys (hk.2 ▸ hd.1)]
      · have h2 := h key
        rw [Params.find, Params.find, if_neg hx, if_neg hx] at h2
        exact h2

theorem keys_setAll {l m : List (Str × Str)} (h : l.map (·.1) = m.map (·.1)) {p q : Params}
    (hp : p.map (·.1) = q.map (·.1)) : (p.setAll l).map (·.1) = (q.setAll m).map (·.1) := by
  induction l generalizing m p q with
  | nil =>
    cases m with
    | nil => exact hp
    | cons y m => cases h
  | cons x l ih =>
    cases m with
    | nil => cases h
    | cons y m =>
      rw [List.map_cons, List.map_cons, List.cons.injEq] at h
      refine ih h.2 ?_
      rw [keys_set, keys_set, hp, h.1]

theorem keys_subset_setAll {l : List (Str × Str)} {p : Params} {key : Str}
    (h : key ∈ p.map (·.1) ∨ key ∈ l.map (·.1)) : key ∈ (p.setAll l).map (·.1) := by
  induction l generalizing p with
  | nil => rcases h with h | h; exact h; cases h
  | cons x l ih =>
    apply ih
    rw [keys_set]
    rcases h with h | h
    · left; split
      · exact h
      · exact List.mem_append_left _ h
    · rcases List.mem_cons.1 h with h | h
      · left; subst h; split
        · assumption
        · exact List.mem_append_right _ List.mem_cons_self
      · exact Or.inr h

theorem keys_setAll_present {l : List (Str × Str)} {p : Params} (h : ∀ x ∈ l, x.1 ∈ p.map (·.1)) :
    (p.setAll l).map (·.1) = p.map (·.1) := by
  induction l generalizing p with
  | nil => rfl
  | cons x l ih =>
    have hk : (p.set x.1 x.2).map (·.1) = p.map (·.1) := by
      rw [keys_set, if_pos (h x List.mem_cons_self)]
    rw [Params.setAll, ih, hk]
    intro y hy
    rw [hk]
    exact h y (List.mem_cons_of_mem _ hy)

theorem lastValue_none {l : List (Str × Str)} {key : Str} : lastValue l key = none ↔ key ∉ l.map (·.1) := by
  unfold lastValue
  rw [Option.map_eq_none_iff, List.find?_eq_none]
  simp only [List.mem_reverse, decide_eq_true_eq, List.mem_map, not_exists, not_and]

/-- Assignments to the same keys once more leave nothing of the first ones. -/
theorem setAll_again {l m : List (Str × Str)} {p : Params} (hd : (p.map (·.1)).Nodup)
    (h : l.map (·.1) = m.map (·.1)) : (p.setAll l).setAll m = p.setAll m := by
  refine ext_params ?_ (nodup_setAll (nodup_setAll hd)) ?_
  · rw [keys_setAll_present]
    · exact keys_setAll h rfl
    · intro x hx
      exact keys_subset_setAll (Or.inr (h ▸ List.mem_map.2 ⟨x, hx, rfl⟩))
  · intro key
    rw [find_setAll, find_setAll, find_setAll]
    cases hm : lastValue m key with
    | some v => rfl
    | none =>
      rw [lastValue_none, ← h] at hm
      rw [lastValue_none.2 hm]
      rfl

/-! ### sequences -/

theorem get_ok {p : Params} {key : String} {v : Str} : get p key = .ok v ↔ p.find key.toList = some v := by
  unfold get
  cases p.find key.toList with
  | none => simp
  | some w => simp

theorem addTest_ok {tests new : List Test} {p : Params} (h : addTest tests p = .ok new) :
    ∃ t, new = tests ++ [t] ∧ addTest [] p = .ok [t] ∧
      ∀ old, lastNamed tests t.name = some old → ∀ key, old.params.find key = t.params.find key := by
  simp only [addTest, Outcome.bind_ok] at h
  obtain ⟨q, h1, name, h2, h3⟩ := h
  have halone : addTest [] p = .ok [⟨name, q⟩] := by
    simp only [addTest, Outcome.bind_ok]
    exact ⟨q, h1, name, h2, rfl⟩
  refine ⟨⟨name, q⟩, ?_, halone, ?_⟩
  · split at h3
    · split at h3
      · cases h3; rfl
      · cases h3
    · cases h3; rfl
  · intro old ho
    dsimp only at ho
    rw [ho] at h3
    dsimp only at h3
    split at h3
    · rename_i hs; exact sameParams_iff.1 hs
    · cases h3

theorem lastNamed_some {tests : List Test} {t : Test} (h : t ∈ tests) :
    ∃ old ∈ tests, lastNamed tests t.name = some old ∧ old.name = t.name := by
  unfold lastNamed
  cases hf : tests.reverse.find? fun u => u.name = t.name with
  | none =>
    rw [List.find?_eq_none] at hf
    exact absurd (hf t (List.mem_reverse.2 h)) (by simp)
  | some old =>
    exact ⟨old, List.mem_reverse.1 (List.mem_of_find?_eq_some hf), rfl, by
      have := List.find?_some hf; simpa using this⟩

/-- Tests of one name have the same parameters. -/
def Consistent (tests : List Test) : Prop :=
  ∀ t ∈ tests, ∀ u ∈ tests, t.name = u.name → ∀ key, t.params.find key = u.params.find key

theorem consistent_add {tests new : List Test} {p : Params} (hc : Consistent tests)
    (h : addTest tests p = .ok new) : Consistent new := by
  obtain ⟨t, rfl, -, ho⟩ := addTest_ok h
  have key : ∀ u ∈ tests, u.name = t.name → ∀ key, u.params.find key = t.params.find key := by
    intro u hu hn k
    obtain ⟨old, hm, h1, h2⟩ := lastNamed_some hu
    rw [hn] at h1
    rw [← ho old h1 k]
    exact hc u hu old hm h2.symm k
  intro a ha b hb hn k
  rcases List.mem_append.1 ha with ha | ha <;> rcases List.mem_append.1 hb with hb | hb
  · exact hc a ha b hb hn k
  · cases List.mem_singleton.1 hb; exact key a ha hn k
  · cases List.mem_singleton.1 ha; exact (key b hb hn.symm k).symm
  · cases List.mem_singleton.1 ha; cases List.mem_singleton.1 hb; rfl

theorem buildConfigs_ok {f : Flags} {base : Params} : ∀ {cs : List Str} {tests new : List Test},
    buildConfigs f base cs tests = .ok new → ∃ more, new = tests ++ more ∧ more.length = cs.length ∧
      (∀ (i : Nat) c, cs[i]? = some c → ∃ t, more[i]? = some t ∧ buildConfigs f base [c] [] = .ok [t]) ∧
      (Consistent tests → Consistent new) := by
  intro cs
  induction cs with
  | nil => intro tests new h; cases h; exact ⟨[], by simp, rfl, fun i c hi => by simp at hi, id⟩
  | cons c rest ih =>
    intro tests new h
    simp only [buildConfigs, Outcome.bind_ok] at h
    obtain ⟨p, h1, mid, h2, h3⟩ := h
    obtain ⟨t, ht, halone, -⟩ := addTest_ok h2
    obtain ⟨more, hm, hl, hall, hc⟩ := ih h3
    refine ⟨t :: more, ?_, by rw [List.length_cons, hl, List.length_cons], ?_,
      fun h => hc (consistent_add h h2)⟩
    · rw [hm, ht, List.append_assoc]; rfl
    · intro i c' hi
      cases i with
      | zero =>
        cases hi
        refine ⟨t, rfl, ?_⟩
        simp only [buildConfigs, Outcome.bind_ok]
        exact ⟨p, h1, [t], halone, rfl⟩
      | succ i => exact hall i c' hi

theorem sweepParams_again {base : Params} (hd : (base.map (·.1)).Nodup) (name : Str) (v w : Int) :
    sweepParams (sweepParams base name v) name w = sweepParams base name w := by
  have eq : ∀ (b : Params) v, sweepParams b name v = b.setAll ((name, showInt v) ::
      ("swept_parameter".toList, name) :: (fieldsAt ',' name).map fun n => (n, showInt v)) := fun _ _ => rfl
  rw [eq, eq, eq]
  refine setAll_again hd ?_
  simp only [List.map_cons, List.map_map]
  rfl

theorem nodup_sweep {base : Params} (hd : (base.map (·.1)).Nodup) (name : Str) (v : Int) :
    ((sweepParams base name v).map (·.1)).Nodup :=
  nodup_setAll (nodup_set (nodup_set hd _ _) _ _)

theorem sweepLoop_ok {f : Flags} {name : Str} {cs : List Str} : ∀ {values : List Int} {base : Params}
    {tests new : List Test}, (base.map (·.1)).Nodup → sweepLoop f name cs values base tests = .ok new →
    ∃ more, new = tests ++ more ∧ more.length = values.length * cs.length ∧
      (∀ (i j : Nat) v c, values[i]? = some v → cs[j]? = some c → ∃ t, more[i * cs.length + j]? = some t ∧
        buildConfigs f (sweepParams base name v) [c] [] = .ok [t]) ∧
      (Consistent tests → Consistent new) := by
  intro values
  induction values with
  | nil =>
    intro base tests new _ h
    cases h
    exact ⟨[], by simp, by simp, fun i j v c hi => by simp at hi, id⟩
  | cons v rest ih =>
    intro base tests new hd h
    simp only [sweepLoop, Outcome.bind_ok] at h
    obtain ⟨mid, h1, h2⟩ := h
    obtain ⟨m1, rfl, hl1, hall1, hc1⟩ := buildConfigs_ok h1
    obtain ⟨m2, rfl, hl2, hall2, hc2⟩ := ih (nodup_sweep hd name v) h2
    refine ⟨m1 ++ m2, List.append_assoc _ _ _, ?_, ?_, fun h => hc2 (hc1 h)⟩
    · rw [List.length_append, hl1, hl2, List.length_cons, Nat.succ_mul, Nat.add_comm]
    · intro i j w c hi hj
      have hjl : j < cs.length := (List.getElem?_eq_some_iff.1 hj).1
      cases i with
      | zero =>
        cases hi
        obtain ⟨t, ht, hb⟩ := hall1 j c hj
        refine ⟨t, ?_, hb⟩
        rw [Nat.zero_mul, Nat.zero_add, List.getElem?_append_left (by omega)]
        exact ht
      | succ i =>
        obtain ⟨t, ht, hb⟩ := hall2 i j w c hi hj
        rw [sweepParams_again hd] at hb
        refine ⟨t, ?_, hb⟩
        rw [List.getElem?_append_right (by rw [hl1, Nat.succ_mul]; omega), hl1]
        rw [← ht]
        congr 1
        rw [Nat.succ_mul]
        omega

/-! ### what the set-up of a test does to its parameters -/

/-- Keys other than `own` keep their values. -/
def Keeps (own : List Str) (p q : Params) : Prop :=
  ∀ key, key ∉ own → ∀ w, p.find key = some w → q.find key = some w

theorem Keeps.trans {own : List Str} {p q r : Params} (h : Keeps own p q) (h' : Keeps own q r) :
    Keeps own p r := fun key hk w hw => h' key hk w (h key hk w hw)

theorem keeps_defaults {own : List Str} {p : Params} (l : List (String × String)) :
    Keeps own p (setDefaults p l) := fun _ _ _ hw => keeps_setDefaults hw

theorem keeps_setAll {own : List Str} {p : Params} {l : List (Str × Str)} (h : ∀ x ∈ l, x.1 ∈ own) :
    Keeps own p (p.setAll l) := by
  intro key hk w hw
  rw [find_setAll, lastValue_none.2, hw]
  · rfl
  · intro hm
    obtain ⟨x, hx, rfl⟩ := List.mem_map.1 hm
    exact hk (h x hx)

theorem keeps_both {own : List Str} {p : Params} (l : List (String × String)) {m : List (Str × Str)}
    (h : ∀ k ∈ m.map (·.1), k ∈ own) : Keeps own p ((setDefaults p l).setAll m) :=
  (keeps_defaults l).trans (keeps_setAll fun _ hx => h _ (List.mem_map.2 ⟨_, hx, rfl⟩))

theorem setAll_append (l m : List (Str × Str)) (p : Params) :
    p.setAll (l ++ m) = (p.setAll l).setAll m := by
  induction l generalizing p with
  | nil => rfl
  | cons x l ih => exact ih _

theorem setDefaults_append (l m : List (String × String)) (p : Params) :
    setDefaults p (l ++ m) = setDefaults (setDefaults p l) m := by
  induction l generalizing p with
  | nil => rfl
  | cons x l ih => exact ih _

/-- The keys that the set-up of a protocol driver writes. -/
def protocolOwn : List Str := ["protocol_alias".toList, "protocol_driver".toList]

/-- The protocol driver that is used. -/
def protocolUsed (p : Params) : Str :=
  match p.find "protocol_driver".toList with
  | some (c :: cs) => c :: cs
  | _ => "grpc".toList

theorem protocolSetup_eq (p : Params) : protocolSetup p =
    if protocolUsed p = "grpc".toList then grpcSetup p
    else if protocolUsed p = "mercury".toList then mercurySetup p
    else if protocolUsed p = "homa".toList then homaSetup p
    else .error "command not found" := by
  unfold protocolSetup protocolUsed
  cases p.find "protocol_driver".toList with
  | none => rfl
  | some n => cases n <;> rfl

theorem protocolSetup_ok {p q : Params} (h : protocolSetup p = .ok q) :
    Keeps protocolOwn p q ∧ q.find "protocol_driver".toList = some (protocolUsed p) := by
  rw [protocolSetup_eq] at h
  split at h
  · next hn =>
    simp only [grpcSetup, Outcome.bind_ok] at h
    obtain ⟨client, -, server, -, size, -, h⟩ := h
    injection h with h
    subst h
    refine ⟨keeps_both _ (by
      intro k hk
      simp only [List.map_cons, List.map_nil] at hk
      revert k
      decide), ?_⟩
    rw [find_setAll, hn]; rfl
  · split at h
    · next hn =>
      simp only [mercurySetup, Outcome.bind_ok] at h
      obtain ⟨size, -, transport, -, h⟩ := h
      injection h with h
      subst h
      refine ⟨keeps_both _ (by
      intro k hk
      simp only [List.map_cons, List.map_nil] at hk
      revert k
      decide), ?_⟩
      rw [find_setAll, hn]; rfl
    · split at h
      · next hn =>
        simp only [homaSetup, Outcome.bind_ok] at h
        obtain ⟨a, -, b, -, c, -, d, -, e, -, _, -, _, -, _, -, _, -, _, -, h⟩ := h
        injection h with h
        subst h
        refine ⟨keeps_both _ (by
      intro k hk
      simp only [List.map_cons, List.map_nil] at hk
      revert k
      decide), ?_⟩
        rw [find_setAll, hn]; rfl
      · cases h

/-- The keys that the set-up of a traffic pattern writes. -/
def patternOwn : List Str :=
  ["test_timeout".toList, "traffic_pattern".toList, "traffic_alias".toList, "test_name".toList]

theorem named_ok {p q : Params} {pattern : String} {alias_ suffix : Str}
    (h : named p pattern alias_ suffix = .ok q) :
    Keeps patternOwn p q ∧ q.find "traffic_pattern".toList = some pattern.toList := by
  simp only [named, Outcome.bind_ok] at h
  obtain ⟨protocol, -, h⟩ := h
  injection h with h
  subst h
  refine ⟨keeps_setAll (by simp [patternOwn]), ?_⟩
  rw [find_setAll]; rfl

theorem withTimeout_ok {p q : Params} (h : withTimeout p = .ok q) : Keeps patternOwn p q := by
  simp only [withTimeout, Outcome.bind_ok] at h
  obtain ⟨text, -, d, -, h⟩ := h
  injection h with h
  subst h
  exact keeps_setAll (l := [("test_timeout".toList, _)]) (by simp [patternOwn])

theorem responseSizes_ok {p q : Params} {lower upper : Str} (h : responseSizes p = .ok (q, lower, upper)) :
    ∃ l, q = setDefaults p l := by
  unfold responseSizes at h
  split at h
  · split at h
    · cases h
    · cases h; exact ⟨[], rfl⟩
  · simp only [Outcome.bind_ok] at h
    obtain ⟨a, -, b, -, h⟩ := h
    injection h with h
    cases h
    exact ⟨_, rfl⟩

theorem pattern_done {pattern : Str} {name : String} {p p1 p2 q : Params} (hn : pattern = name.toList)
    (h1 : withTimeout p = .ok p1) (h2 : ∃ l, p2 = setDefaults p1 l)
    (h : Keeps patternOwn p2 q ∧ q.find "traffic_pattern".toList = some name.toList) :
    Keeps patternOwn p q ∧ q.find "traffic_pattern".toList = some pattern := by
  obtain ⟨l, rfl⟩ := h2
  exact ⟨((withTimeout_ok h1).trans (keeps_defaults l)).trans h.1, hn ▸ h.2⟩

theorem patternSetup_ok {pattern : Str} {p q : Params} (h : patternSetup pattern p = .ok q) :
    Keeps patternOwn p q ∧ q.find "traffic_pattern".toList = some pattern := by
  unfold patternSetup at h
  split at h
  · next hn =>
    simp only [cliqueSetup, Outcome.bind_ok] at h
    obtain ⟨p1, h1, _, -, _, -, _, -, _, -, _, -, _, -, _, -, _, -, h⟩ := h
    exact pattern_done hn h1 ⟨_, rfl⟩ (named_ok h)
  split at h
  · next hn =>
    simp only [rectangularSetup, Outcome.bind_ok] at h
    obtain ⟨p1, h1, _, -, _, -, _, -, _, -, _, -, _, -, _, -, _, -, _, -, _, -, _, -, _, -, h⟩ := h
    exact pattern_done hn h1 ⟨_, rfl⟩ (named_ok h)
  split at h
  · next hn =>
    simp only [clientServerSetup, Outcome.bind_ok] at h
    obtain ⟨p1, h1, _, -, _, -, _, -, _, -, _, -, _, -, h⟩ := h
    exact pattern_done hn h1 ⟨_, rfl⟩ (named_ok h)
  split at h
  · next hn =>
    simp only [tripartiteSetup, Outcome.bind_ok] at h
    obtain ⟨p1, h1, _, -, _, -, _, -, _, -, _, -, _, -, h⟩ := h
    exact pattern_done hn h1 ⟨_, rfl⟩ (named_ok h)
  split at h
  · next hn =>
    simp only [multiLevelSetup, Outcome.bind_ok] at h
    obtain ⟨p1, h1, _, -, _, -, _, -, _, -, _, -, _, -, _, -, h⟩ := h
    exact pattern_done hn h1 ⟨_, rfl⟩ (named_ok h)
  split at h
  · next hn =>
    simp only [variableSetup, Outcome.bind_ok] at h
    obtain ⟨p1, h1, ⟨p2, lower, upper⟩, h2, _, -, _, -, _, -, _, -, _, -, _, -, _, -, _, -, _, -, h⟩ := h
    obtain ⟨l, hl⟩ := responseSizes_ok h2
    exact pattern_done hn h1 ⟨multiLevelDefaults ++ l, by rw [hl, setDefaults_append]⟩ (named_ok h)
  · cases h

/-- What the set-up keeps. -/
theorem finish_ok {p q : Params} (h : finish p = .ok q) :
    Keeps (protocolOwn ++ patternOwn) p q ∧
    q.find "protocol_driver".toList = some (protocolUsed p) ∧
    (∃ pattern, p.find "traffic_pattern".toList = some pattern ∧
      q.find "traffic_pattern".toList = some pattern) := by
  simp only [finish, Outcome.bind_ok] at h
  obtain ⟨pattern, h1, p1, h2, h3⟩ := h
  obtain ⟨k1, d1⟩ := protocolSetup_ok h2
  obtain ⟨k2, d2⟩ := patternSetup_ok h3
  refine ⟨?_, k2 _ (by decide) _ d1, pattern, get_ok.1 h1, d2⟩
  intro key hk w hw
  rw [List.mem_append, not_or] at hk
  exact k2 key hk.2 w (k1 key hk.1 w hw)

end Distbench.Builder
