import Verif.Model.Sequencer
import Verif.Lemmas.Names

/-! Lemmas on maps and on the registry. -/

namespace Distbench.Sequencer
open Placement Services

/-! ### maps -/

theorem Map.find_set {α : Type} (m : Map α) (k x : Str) (v : α) :
    (m.set k v).find x = if k = x then some v else m.find x := by
  induction m with
  | nil => simp [Map.set, Map.find]
  | cons e m ih =>
    obtain ⟨a, b⟩ := e
    simp only [Map.set]
    by_cases h : a = k
    · subst h
      simp only [if_true, Map.find]
      split <;> rfl
    · simp only [if_neg h, Map.find, ih]
      by_cases h1 : a = x
      · subst h1
        rw [if_pos rfl, if_neg (fun e => h e.symm), if_pos rfl]
      · simp [h1]

/-- The last entry of a merged map wins. -/
theorem Map.find_merge {α : Type} (other m : Map α) (x : Str) :
    (m.merge other).find x = ((Map.merge [] other).find x).or (m.find x) := by
  unfold Map.merge
  induction other generalizing m with
  | nil => rfl
  | cons e rest ih =>
    simp only [List.foldl_cons]
    rw [ih, ih (Map.set [] e.1 e.2), Map.find_set, Map.find_set]
    cases Map.find (List.foldl (fun m e => m.set e.1 e.2) [] rest) x with
    | some v => rfl
    | none =>
      simp only [Option.none_or, Map.find]
      split <;> rfl

/-! ### the registry -/

theorem aliasOf_inj {m n : Nat} (h : aliasOf m = aliasOf n) : m = n :=
  digits_inj (List.append_cancel_left h)

/-- What the registry says about the registrations accepted so far. -/
structure RegistryOk (s : Registry) (h : List (Registration × Option (Nat × Str))) : Prop where
  name : ∀ r id al, (r, some (id, al)) ∈ h → al = aliasOf id
  lookup : ∀ r id, s.lookup r = some id ↔ (r, some (id, aliasOf id)) ∈ h
  owner : ∀ r r' id, (r, some (id, aliasOf id)) ∈ h → (r', some (id, aliasOf id)) ∈ h → r = r'
  slot : ∀ r id, (r, some (id, aliasOf id)) ∈ h →
    s.nodes[id]? = some { nodeAlias := aliasOf id, pending := false, registration := r }
  slots : ∀ (id : Nat) n, s.nodes[id]? = some n → n.pending = false →
    ∃ r, (r, some (id, aliasOf id)) ∈ h
  named : ∀ n id, s.byAlias.find n = some id ↔ n = aliasOf id ∧ ∃ r, (r, some (id, aliasOf id)) ∈ h

theorem lookup_append (s : Registry) (r : Registration) (id : Nat) (r' : Registration) :
    Registry.lookup { s with byRegistration := s.byRegistration ++ [(r, id)] } r' =
      (s.lookup r').or (if r = r' then some id else none) := by
  unfold Registry.lookup
  rw [List.find?_append]
  cases s.byRegistration.find? (fun e => e.1 == r') with
  | some e => rfl
  | none =>
    simp only [List.find?_cons, List.find?_nil, Option.none_or, Option.map_none]
    by_cases h : r = r'
    · subst h; simp
    · have : (r == r') = false := by simpa using h
      simp [this, h]

theorem registryOk_start : RegistryOk {} [] := by
  constructor <;> intros <;> simp_all [Registry.lookup, Map.find]

theorem getElem?_grow (nodes : List Slot) (n i : Nat) :
    (grow nodes n)[i]? = if i < nodes.length then nodes[i]? else if i < n then some {} else none := by
  unfold grow
  rw [List.getElem?_append]
  split
  · rfl
  · rw [List.getElem?_replicate]
    split
    · rw [if_pos (by omega)]
    · rw [if_neg (by omega)]

/-- A rejected registration adds nothing. -/
theorem registryOk_reject {s : Registry} {h} (hs : RegistryOk s h) (r : Registration) :
    RegistryOk s (h ++ [(r, none)]) := by
  have hm : ∀ x (y : Nat × Str), (x, some y) ∈ h ++ [(r, none)] ↔ (x, some y) ∈ h := by simp
  constructor
  · intro r' id al; rw [hm]; exact hs.name r' id al
  · intro r' id; rw [hm]; exact hs.lookup r' id
  · intro r' r'' id; rw [hm, hm]; exact hs.owner r' r'' id
  · intro r' id; rw [hm]; exact hs.slot r' id
  · intro id n h1 h2
    obtain ⟨r', h3⟩ := hs.slots id n h1 h2
    exact ⟨r', (hm _ _).2 h3⟩
  · intro n id
    rw [hs.named n id]
    simp only [hm]

theorem registryOk_step {s s' : Registry} {h} {r : Registration} {a : Option (Nat × Str)}
    (hs : RegistryOk s h) (hr : register s r = .ok (s', a)) : RegistryOk s' (h ++ [(r, a)]) := by
  unfold register at hr
  split at hr
  · simp only [Outcome.ok.injEq, Prod.mk.injEq] at hr
    obtain ⟨rfl, rfl⟩ := hr
    exact registryOk_reject hs r
  · split at hr
    · rename_i id hl
      have hin := (hs.lookup r id).1 hl
      have hslot := hs.slot r id hin
      simp only [hslot, Option.getD_some, Outcome.ok.injEq, Prod.mk.injEq] at hr
      obtain ⟨rfl, rfl⟩ := hr
      have hsame : s.nodes.set id { nodeAlias := aliasOf id, pending := false, registration := r }
          = s.nodes := by
        apply List.ext_getElem?
        intro i
        rw [List.getElem?_set]
        by_cases hi : id = i
        · subst hi
          rw [if_pos rfl]
          obtain ⟨hlt, _⟩ := List.getElem?_eq_some_iff.1 hslot
          rw [if_pos hlt, hslot]
        · rw [if_neg hi]
      rw [hsame]
      have hm : ∀ x (y : Nat × Str),
          (x, some y) ∈ h ++ [(r, some (id, aliasOf id))] ↔ (x, some y) ∈ h := by
        intro x y
        rw [List.mem_append, List.mem_singleton]
        constructor
        · rintro (h1 | h1)
          · exact h1
          · simp only [Prod.mk.injEq, Option.some.injEq] at h1
            obtain ⟨rfl, rfl⟩ := h1
            exact hin
        · exact Or.inl
      exact
        { name := by intro r' id al; rw [hm]; exact hs.name r' id al
          lookup := by intro r' id; rw [hm]; exact hs.lookup r' id
          owner := by intro r' r'' id; rw [hm, hm]; exact hs.owner r' r'' id
          slot := by intro r' id; rw [hm]; exact hs.slot r' id
          slots := by
            intro id n h1 h2
            obtain ⟨r', h3⟩ := hs.slots id n h1 h2
            exact ⟨r', (hm _ _).2 h3⟩
          named := by
            intro n id
            rw [hs.named n id]
            simp only [hm] }
    · rename_i hl
      dsimp only at hr
      generalize hid : (if r.preassigned ≥ 0 then r.preassigned.toNat else s.nodes.length) = id at hr
      split at hr
      · simp at hr
      · rename_i hub
        generalize hn : (if id ≥ s.nodes.length then grow s.nodes (id + 1) else s.nodes) = nodes at hr
        have hget : ∀ i : Nat, nodes[i]? = if i < s.nodes.length then s.nodes[i]?
            else if i ≤ id then some {} else none := by
          intro i
          rw [← hn]
          split
          · rw [getElem?_grow]
            simp only [Nat.lt_succ_iff]
          · rename_i hge
            split
            · rfl
            · rw [if_neg (by omega), List.getElem?_eq_none (by omega)]
        split at hr
        · rename_i hp
          simp only [Outcome.ok.injEq, Prod.mk.injEq] at hr
          obtain ⟨rfl, rfl⟩ := hr
          have hlt : id < s.nodes.length := by
            refine Classical.byContradiction fun hge => ?_
            rw [hget, if_neg hge, if_pos (Nat.le_refl _)] at hp
            simp at hp
          have : nodes = s.nodes := by rw [← hn, if_neg (by omega)]
          subst this
          exact registryOk_reject hs r
        · rename_i hp
          simp only [Outcome.ok.injEq, Prod.mk.injEq] at hr
          obtain ⟨rfl, rfl⟩ := hr
          have hnew : ∀ r', (r', some (id, aliasOf id)) ∉ h := by
            intro r' hr'
            have h1 := hs.slot r' id hr'
            have hlt : id < s.nodes.length := (List.getElem?_eq_some_iff.1 h1).1
            rw [hget, if_pos hlt, h1] at hp
            simp at hp
          have hidlt : id < nodes.length := by
            have : nodes[id]? ≠ none := by
              rw [hget]
              split
              · rename_i hlt
                rw [List.getElem?_eq_getElem hlt]; simp
              · simp
            refine Classical.byContradiction fun hge => this (List.getElem?_eq_none (by omega))
          have hm : ∀ x i al, (x, some (i, al)) ∈ h ++ [(r, some (id, aliasOf id))] ↔
              (x, some (i, al)) ∈ h ∨ (x = r ∧ i = id ∧ al = aliasOf id) := by
            intro x i al
            simp
          have hrnew : ∀ i, (r, some (i, aliasOf i)) ∉ h := by
            intro i hi
            rw [(hs.lookup r i).2 hi] at hl
            cases hl
          constructor
          · intro r' i al
            rw [hm]
            rintro (h1 | ⟨rfl, rfl, rfl⟩)
            · exact hs.name _ _ _ h1
            · rfl
          · intro r' i
            have hla := lookup_append s r id r'
            unfold Registry.lookup at hla ⊢
            rw [hm]
            simp only [] at hla ⊢
            rw [hla]
            have := hs.lookup r' i
            unfold Registry.lookup at this
            generalize hx : Option.map (·.2) (List.find? (fun e => e.1 == r') s.byRegistration) = x
              at this
            cases x with
            | some v =>
              simp only [Option.some_or]
              rw [this]
              constructor
              · exact Or.inl
              · rintro (h1 | ⟨rfl, rfl, h1⟩)
                · exact h1
                · rw [Registry.lookup, hx] at hl
                  cases hl
            | none =>
              simp only [Option.none_or]
              constructor
              · intro h1
                split at h1
                · rename_i h2
                  simp only [Option.some.injEq] at h1
                  subst h1 h2
                  exact Or.inr ⟨rfl, rfl, rfl⟩
                · cases h1
              · rintro (h1 | ⟨rfl, rfl, h1⟩)
                · exact absurd (this.2 h1) (by simp)
                · rw [if_pos rfl]
          · intro r1 r2 i
            rw [hm, hm]
            rintro (h1 | ⟨rfl, rfl, _⟩) (h2 | ⟨rfl, h2, _⟩)
            · exact hs.owner _ _ _ h1 h2
            · subst h2; exact absurd h1 (hnew _)
            · exact absurd h2 (hnew _)
            · rfl
          · intro r' i
            rw [hm, List.getElem?_set]
            rintro (h1 | ⟨rfl, rfl, _⟩)
            · have hne : id ≠ i := by
                rintro rfl
                exact hnew _ h1
              rw [if_neg hne, hget]
              have h2 := hs.slot _ _ h1
              rw [if_pos (List.getElem?_eq_some_iff.1 h2).1, h2]
            · rw [if_pos rfl, if_pos hidlt]
          · intro i n
            rw [List.getElem?_set]
            split
            · rename_i hi
              subst hi
              intro _ _
              exact ⟨r, (hm _ _ _).2 (Or.inr ⟨rfl, rfl, rfl⟩)⟩
            · intro h1 h2
              rw [hget] at h1
              split at h1
              · obtain ⟨r', h3⟩ := hs.slots _ _ h1 h2
                exact ⟨r', (hm _ _ _).2 (Or.inl h3)⟩
              · split at h1
                · simp only [Option.some.injEq] at h1
                  subst h1
                  simp at h2
                · cases h1
          · intro n i
            rw [Map.find_set]
            simp only [hm]
            split
            · rename_i h1
              subst h1
              constructor
              · intro h2
                simp only [Option.some.injEq] at h2
                subst h2
                exact ⟨rfl, r, Or.inr ⟨rfl, rfl, rfl⟩⟩
              · rintro ⟨h2, _⟩
                rw [aliasOf_inj h2]
            · rename_i h1
              rw [hs.named]
              constructor
              · rintro ⟨rfl, r', h3⟩
                exact ⟨rfl, r', Or.inl h3⟩
              · rintro ⟨rfl, r', h3 | ⟨_, rfl, _⟩⟩
                · exact ⟨rfl, r', h3⟩
                · exact absurd rfl h1

theorem registryOk {s : Registry} {h} (hh : History s h) : RegistryOk s h := by
  induction hh with
  | start => exact registryOk_start
  | step _ hr ih => exact registryOk_step ih hr

end Distbench.Sequencer
