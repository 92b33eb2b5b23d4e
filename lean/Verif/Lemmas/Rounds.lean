import Verif.Spec.Sequencer
import Verif.Lemmas.Registry
import Verif.Props.Placement

/-! Lemmas on the rounds of RPCs that make up a test. -/

namespace Distbench.Placement

/-! ### keys of a placement -/

theorem keys_insert (m : NodeServiceMap) (n s : Str) :
    (m.insert n s).map (·.1) =
      if n ∈ m.map (·.1) then m.map (·.1) else m.map (·.1) ++ [n] := by
  induction m with
  | nil => simp [NodeServiceMap.insert]
  | cons e m ih =>
    obtain ⟨a, b⟩ := e
    unfold NodeServiceMap.insert
    by_cases h : a = n
    · subst h; simp
    · rw [if_neg h]
      have hm : (n ∈ ((a, b) :: m).map (·.1)) ↔ n ∈ m.map (·.1) := by
        simp only [List.map_cons, List.mem_cons]
        exact ⟨fun hx => hx.resolve_left (fun e => h e.symm), Or.inr⟩
      rw [List.map_cons, ih]
      by_cases hin : n ∈ m.map (·.1)
      · rw [if_pos hin, if_pos (hm.2 hin)]; rfl
      · rw [if_neg hin, if_neg (fun hx => hin (hm.1 hx))]; rfl

/-- Distinct nodes, all among `nodes`. -/
def KeysOk (nodes : List Str) (m : NodeServiceMap) : Prop :=
  (m.map (·.1)).Nodup ∧ ∀ n ∈ m.map (·.1), n ∈ nodes

theorem keysOk_insert {nodes : List Str} {m : NodeServiceMap} {n s : Str} (h : KeysOk nodes m)
    (hn : n ∈ nodes) : KeysOk nodes (m.insert n s) := by
  unfold KeysOk at h ⊢
  rw [keys_insert]
  split
  · exact h
  · rename_i hnew
    refine ⟨?_, ?_⟩
    · rw [List.nodup_append]
      refine ⟨h.1, by simp, ?_⟩
      intro a ha b hb
      simp only [List.mem_singleton] at hb
      subst hb
      rintro rfl
      exact hnew ha
    · intro x hx
      rw [List.mem_append, List.mem_singleton] at hx
      rcases hx with hx | rfl
      · exact h.2 x hx
      · exact hn

theorem keys_bundleServices {node : Str} {nodes : List Str} (hn : node ∈ nodes) :
    ∀ {ss : List Str} {st st' : State}, placeBundleServices node ss st = .ok st' →
      KeysOk nodes st.placed → KeysOk nodes st'.placed ∧ st'.idle = st.idle
  | [], st, st', h, hk => by
    simp only [placeBundleServices, Outcome.ok.injEq] at h
    subst h; exact ⟨hk, rfl⟩
  | s :: ss, st, st', h, hk => by
    rw [placeBundleServices] at h
    split at h
    · obtain ⟨h1, h2⟩ := keys_bundleServices hn h (keysOk_insert hk hn)
      exact ⟨h1, h2⟩
    · cases h

theorem idle_bundleServices {node : Str} :
    ∀ {ss : List Str} {st st' : State}, placeBundleServices node ss st = .ok st' → st'.idle = st.idle
  | [], st, st', h => by
    simp only [placeBundleServices, Outcome.ok.injEq] at h
    subst h; rfl
  | s :: ss, st, st', h => by
    rw [placeBundleServices] at h
    split at h
    · have := idle_bundleServices h
      exact this
    · cases h

theorem keys_bundles {nodes : List Str} :
    ∀ {bs : List (Str × List Str)} {st st' : State}, placeBundles bs st = .ok st' →
      KeysOk nodes st.placed → (∀ n ∈ st.idle, n ∈ nodes) →
      KeysOk nodes st'.placed ∧ (∀ n ∈ st'.idle, n ∈ nodes)
  | [], st, st', h, hk, hi => by
    simp only [placeBundles, Outcome.ok.injEq] at h
    subst h; exact ⟨hk, hi⟩
  | (node, ss) :: bs, st, st', h, hk, hi => by
    rw [placeBundles] at h
    cases hb : placeBundleServices node ss st with
    | ok st1 =>
      rw [hb] at h
      simp only at h
      split at h
      · rename_i hidle
        rw [idle_bundleServices hb] at hidle
        obtain ⟨h1, h2⟩ := keys_bundleServices (hi _ hidle) hb hk
        refine keys_bundles h h1 ?_
        intro n hn
        simp only [List.mem_filter] at hn
        rw [h2] at hn
        exact hi n hn.1
      · cases h
    | error m => rw [hb] at h; cases h
    | ub => rw [hb] at h; cases h
    | crash => rw [hb] at h; cases h

theorem firstFit_mem {nodes : List (Str × List Attribute)} {cl : ConstraintList} {n : Str} :
    ∀ {idle : List Str}, firstFit nodes cl idle = .ok (some n) → n ∈ idle
  | [], h => by simp [firstFit] at h
  | x :: rest, h => by
    rw [firstFit] at h
    split at h
    · simp only [Outcome.ok.injEq, Option.some.injEq] at h
      subst h; simp
    · exact List.mem_cons_of_mem _ (firstFit_mem h)
    · cases h
    · cases h
    · cases h

theorem keys_constrained {attrs : List (Str × List Attribute)} {cs : List (Str × ConstraintList)}
    {nodes : List Str} :
    ∀ {ss : List Str} {st st' : State}, placeConstrained attrs cs ss st = .ok st' →
      KeysOk nodes st.placed → (∀ n ∈ st.idle, n ∈ nodes) →
      KeysOk nodes st'.placed ∧ (∀ n ∈ st'.idle, n ∈ nodes)
  | [], st, st', h, hk, hi => by
    simp only [placeConstrained, Outcome.ok.injEq] at h
    subst h; exact ⟨hk, hi⟩
  | s :: ss, st, st', h, hk, hi => by
    rw [placeConstrained] at h
    split at h
    · exact keys_constrained h hk hi
    · split at h
      · rename_i n hff
        refine keys_constrained h (keysOk_insert hk (hi _ (firstFit_mem hff))) ?_
        intro x hx
        simp only [List.mem_filter] at hx
        exact hi x hx.1
      all_goals cases h

theorem keys_remaining {nodes : List Str} :
    ∀ {ss idle : List Str} {m m' : NodeServiceMap} {f : Bool}, placeRemaining ss idle m f = .ok m' →
      KeysOk nodes m → (∀ n ∈ idle, n ∈ nodes) → KeysOk nodes m'
  | [], idle, m, m', f, h, hk, _ => by
    rw [placeRemaining] at h
    split at h
    · cases h
    · simp only [Outcome.ok.injEq] at h
      subst h; exact hk
  | s :: ss, [], m, m', f, h, hk, hi => by
    rw [placeRemaining] at h
    exact keys_remaining h hk hi
  | s :: ss, n :: idle, m, m', f, h, hk, hi => by
    rw [placeRemaining] at h
    exact keys_remaining h (keysOk_insert hk (hi n (by simp)))
      (fun x hx => hi x (List.mem_cons_of_mem _ hx))

theorem keys_addEmpty {nodes : List Str} : ∀ (ns : List Str) (m : NodeServiceMap), KeysOk nodes m →
    (∀ n ∈ ns, n ∈ nodes) → KeysOk nodes (ns.foldl addEmpty m)
  | [], m, h, _ => h
  | n :: ns, m, h, hn => by
    rw [List.foldl_cons]
    refine keys_addEmpty ns _ ?_ (fun x hx => hn x (List.mem_cons_of_mem _ hx))
    unfold addEmpty
    split
    · exact h
    · rename_i hnew
      refine ⟨?_, ?_⟩
      · rw [List.map_append, List.nodup_append]
        refine ⟨h.1, by simp, ?_⟩
        intro a ha b hb
        simp only [List.map_cons, List.map_nil, List.mem_singleton] at hb
        subst hb
        rintro rfl
        exact hnew ha
      · intro x hx
        simp only [List.map_append, List.map_cons, List.map_nil, List.mem_append,
          List.mem_singleton] at hx
        rcases hx with hx | rfl
        · exact h.2 x hx
        · exact hn x (by simp)

/-- A placement lists registered nodes only, each once. -/
theorem keys_placeServices {glob : Str → Str → Bool} {p : Problem} {m : NodeServiceMap}
    (h : placeServices glob p = .ok m) : KeysOk (p.nodes.map (·.1)) m := by
  unfold placeServices at h
  cases hs : constraintSolver glob p with
  | ok m' =>
    rw [hs] at h
    simp only [Outcome.ok.injEq] at h
    subst h
    refine keys_addEmpty _ _ ?_ (fun n hn => hn)
    unfold constraintSolver at hs
    split at hs
    · rename_i st hb
      obtain ⟨h1, h2⟩ := keys_bundles (nodes := p.nodes.map (·.1)) hb
        ⟨by simp, by simp⟩ (fun n hn => hn)
      split at hs
      · rename_i st' hc
        obtain ⟨h3, h4⟩ := keys_constrained hc h1 h2
        split at hs
        · simp only [Outcome.ok.injEq] at hs
          subst hs
          exact h3
        · exact keys_remaining hs h3 h4
      all_goals cases hs
    all_goals cases hs
  | error m => rw [hs] at h; cases h
  | ub => rw [hs] at h; cases h
  | crash => rw [hs] at h; cases h

/-! ### placement never aborts the process -/

theorem anyTrue_ne_crash {α : Type} {check : α → Outcome Bool} (h : ∀ x, check x ≠ .crash) :
    ∀ l : List α, anyTrue check l ≠ .crash
  | [] => by simp [anyTrue]
  | x :: l => by
    unfold anyTrue
    have := h x
    have := anyTrue_ne_crash h l
    grind

theorem allTrue_ne_crash {α : Type} {check : α → Outcome Bool} (h : ∀ x, check x ≠ .crash) :
    ∀ l : List α, allTrue check l ≠ .crash
  | [] => by simp [allTrue]
  | x :: l => by
    unfold allTrue
    have := h x
    have := allTrue_ne_crash h l
    grind

theorem checkConstraintList_ne_crash (cl : ConstraintList) (attrs : List Attribute) :
    checkConstraintList cl attrs ≠ .crash := by
  refine allTrue_ne_crash (fun cs => anyTrue_ne_crash (fun c => anyTrue_ne_crash (fun a => ?_) _) _) _
  unfold checkAttribute
  split
  · simp
  · split
    · simp
    · refine anyTrue_ne_crash (fun n => ?_) _
      unfold checkIntConstraint
      grind

theorem firstFit_ne_crash (nodes : List (Str × List Attribute)) (cl : ConstraintList) :
    ∀ idle : List Str, firstFit nodes cl idle ≠ .crash
  | [] => by simp [firstFit]
  | n :: idle => by
    unfold firstFit
    have := checkConstraintList_ne_crash cl (attributesOf nodes n)
    have := firstFit_ne_crash nodes cl idle
    grind

theorem placeConstrained_ne_crash (nodes : List (Str × List Attribute))
    (cs : List (Str × ConstraintList)) :
    ∀ (ss : List Str) (st : State), placeConstrained nodes cs ss st ≠ .crash
  | [], st => by simp [placeConstrained]
  | s :: ss, st => by
    unfold placeConstrained
    split
    · exact placeConstrained_ne_crash nodes cs ss st
    · rename_i cl _
      have := firstFit_ne_crash nodes cl st.idle
      split
      · exact placeConstrained_ne_crash nodes cs ss _
      · simp
      · simp
      · simp
      · contradiction

theorem placeBundleServices_ne_crash (node : Str) :
    ∀ (ss : List Str) (st : State), placeBundleServices node ss st ≠ .crash
  | [], st => by simp [placeBundleServices]
  | s :: ss, st => by
    unfold placeBundleServices
    split
    · exact placeBundleServices_ne_crash node ss _
    · simp

theorem placeBundles_ne_crash :
    ∀ (bs : List (Str × List Str)) (st : State), placeBundles bs st ≠ .crash
  | [], st => by simp [placeBundles]
  | (node, ss) :: bs, st => by
    unfold placeBundles
    have := placeBundleServices_ne_crash node ss st
    split
    · split
      · exact placeBundles_ne_crash bs _
      · simp
    · simp
    · simp
    · contradiction

theorem placeRemaining_ne_crash :
    ∀ (ss idle : List Str) (m : NodeServiceMap) (f : Bool), placeRemaining ss idle m f ≠ .crash
  | [], idle, m, f => by unfold placeRemaining; split <;> simp
  | s :: ss, [], m, f => by unfold placeRemaining; exact placeRemaining_ne_crash ss [] m true
  | s :: ss, n :: idle, m, f => by
    unfold placeRemaining
    exact placeRemaining_ne_crash ss idle _ f

theorem placeServices_ne_crash (glob : Str → Str → Bool) (p : Problem) :
    placeServices glob p ≠ .crash := by
  have : constraintSolver glob p ≠ .crash := by
    unfold constraintSolver
    split
    · split
      · split
        · simp
        · exact placeRemaining_ne_crash _ _ _ _
      · simp
      · simp
      · rename_i h
        exact absurd h (placeConstrained_ne_crash _ _ _ _)
    · simp
    · simp
    · rename_i h
      exact absurd h (placeBundles_ne_crash _ _)
  unfold placeServices
  split
  · simp
  · simp
  · simp
  · contradiction

end Distbench.Placement

namespace Distbench.Sequencer
open Placement Services Spec
open Handler (Status)

/-! ### rounds -/

theorem round_none_from {α : Type} {rpc : Str} :
    ∀ (answers : List (Str × Except Status α)) (st : Option Status),
      answers.foldl (fun status a =>
        match a.2 with
        | .error e => some (annotate e (rpc ++ " to ".toList ++ a.1 ++ " failed: ".toList))
        | .ok _ => status) st = none ↔ st = none ∧ ∀ a ∈ answers, ∃ v, a.2 = .ok v
  | [], st => by simp
  | a :: rest, st => by
    rw [List.foldl_cons, round_none_from rest]
    cases h : a.2 with
    | ok v => simp [h]
    | error e => simp [h]

theorem round_none {α : Type} {rpc : Str} (answers : List (Str × Except Status α)) :
    roundStatus rpc answers = none ↔ ∀ a ∈ answers, ∃ v, a.2 = .ok v := by
  have h := round_none_from (rpc := rpc) answers none
  exact Iff.trans h (by simp)

theorem round_some_from {α : Type} {rpc : Str} {e : Status} :
    ∀ (answers : List (Str × Except Status α)) (st : Option Status),
      answers.foldl (fun status a =>
        match a.2 with
        | .error e => some (annotate e (rpc ++ " to ".toList ++ a.1 ++ " failed: ".toList))
        | .ok _ => status) st = some e →
      st = some e ∨ ∃ a ∈ answers, ∃ e', a.2 = .error e' ∧
        e = { code := e'.code, message := rpc ++ " to ".toList ++ a.1 ++ " failed: ".toList ++ e'.message }
  | [], st, h => Or.inl h
  | a :: rest, st, h => by
    rw [List.foldl_cons] at h
    rcases round_some_from rest _ h with h1 | ⟨b, h1, h2⟩
    · cases ha : a.2 with
      | ok v => rw [ha] at h1; exact Or.inl h1
      | error e' =>
        rw [ha] at h1
        simp only [Option.some.injEq] at h1
        exact Or.inr ⟨a, by simp, e', ha, h1.symm⟩
    · exact Or.inr ⟨b, List.mem_cons_of_mem _ h1, h2⟩

theorem round_some {α : Type} {rpc : Str} {e : Status} (answers : List (Str × Except Status α))
    (h : roundStatus rpc answers = some e) :
    ∃ a ∈ answers, ∃ e', a.2 = .error e' ∧
      e = { code := e'.code, message := rpc ++ " to ".toList ++ a.1 ++ " failed: ".toList ++ e'.message } := by
  rcases round_some_from answers none h with h1 | h1
  · cases h1
  · exact h1

/-! ### addressees -/

theorem addressees_ok {s : Registry} : ∀ {ns : List Str} {to : List (Str × Nat)},
    addressees s ns = .ok to → to.map (·.1) = ns ∧ ∀ n id, (n, id) ∈ to → s.byAlias.find n = some id
  | [], to, h => by
    simp only [addressees, Outcome.ok.injEq] at h
    subst h; simp
  | n :: ns, to, h => by
    rw [addressees] at h
    split at h
    · cases h
    · rename_i id hid
      cases hr : addressees s ns with
      | ok l =>
        rw [hr] at h
        simp only [Outcome.bind, Outcome.ok.injEq] at h
        subst h
        obtain ⟨h1, h2⟩ := addressees_ok hr
        refine ⟨by simp [h1], ?_⟩
        intro n' id' hin
        rw [List.mem_cons] at hin
        rcases hin with h3 | h3
        · cases h3; exact hid
        · exact h2 _ _ h3
      | error m => rw [hr] at h; cases h
      | ub => rw [hr] at h; cases h
      | crash => rw [hr] at h; cases h

theorem addressees_found {s : Registry} : ∀ {ns : List Str},
    (∀ n ∈ ns, ∃ id, s.byAlias.find n = some id) → ∃ to, addressees s ns = .ok to
  | [], _ => ⟨[], rfl⟩
  | n :: ns, h => by
    obtain ⟨id, hid⟩ := h n (by simp)
    obtain ⟨to, hto⟩ := addressees_found (fun x hx => h x (List.mem_cons_of_mem _ hx))
    refine ⟨(n, id) :: to, ?_⟩
    rw [addressees, hid]
    simp only [hto, Outcome.bind]

theorem addressees_congr {s s' : Registry} : ∀ {ns : List Str},
    (∀ n ∈ ns, s.byAlias.find n = s'.byAlias.find n) → addressees s ns = addressees s' ns
  | [], _ => rfl
  | n :: ns, h => by
    rw [addressees, addressees, h n (by simp),
      addressees_congr (fun x hx => h x (List.mem_cons_of_mem _ hx))]

/-! ### the registry grows -/

theorem grows_history {s s' : Registry} (h : Grows s s') {l} (hs : History s l) :
    ∃ l', History s' (l ++ l') := by
  induction h with
  | refl => exact ⟨[], by simpa using hs⟩
  | step _ hr ih =>
    obtain ⟨l', h'⟩ := ih
    exact ⟨l' ++ [_], by rw [← List.append_assoc]; exact h'.step hr⟩

theorem find_grows {s s' : Registry} (h : Grows s s') {l} (hs : History s l) {n : Str} {id : Nat}
    (hf : s.byAlias.find n = some id) : s'.byAlias.find n = some id := by
  obtain ⟨l', h'⟩ := grows_history h hs
  obtain ⟨h1, r, h2⟩ := ((registryOk hs).named n id).1 hf
  exact ((registryOk h').named n id).2 ⟨h1, r, by simp [h2]⟩

theorem mem_insertNode (l : List (Str × List Attribute)) (n : Str × List Attribute) (x : Str) :
    x ∈ (insertNode l n).map (·.1) ↔ x = n.1 ∨ x ∈ l.map (·.1) := by
  induction l with
  | nil => simp [insertNode]
  | cons y l ih =>
    unfold insertNode
    split
    · rename_i h; simp [h]
    · split
      · simp
      · simp only [List.map_cons, List.mem_cons, ih]
        grind

theorem mem_activeNodes_from (x : Str) : ∀ (nodes : List Slot) (acc : List (Str × List Attribute)),
    x ∈ (nodes.foldl (fun l n => if n.pending then l
        else insertNode l (n.nodeAlias, n.registration.attributes)) acc).map (·.1) ↔
      (∃ n ∈ nodes, n.pending = false ∧ n.nodeAlias = x) ∨ x ∈ acc.map (·.1)
  | [], acc => by simp
  | n :: nodes, acc => by
    rw [List.foldl_cons, mem_activeNodes_from x nodes]
    cases hp : n.pending with
    | true => simp [hp]
    | false =>
      simp only [Bool.false_eq_true, if_false, mem_insertNode, List.mem_cons, exists_eq_or_imp, hp, true_and]
      grind

/-- Every node of the map built for the placement has an alias that is found, with its id. -/
theorem activeNodes_find {s : Registry} {l} (hs : History s l) {n : Str} :
    n ∈ (activeNodes s).map (·.1) ↔ ∃ id, s.byAlias.find n = some id := by
  have hok := registryOk hs
  unfold activeNodes
  rw [mem_activeNodes_from]
  simp only [List.map_nil, List.not_mem_nil, or_false]
  constructor
  · rintro ⟨slot, h1, h2, rfl⟩
    obtain ⟨id, hid⟩ := List.getElem?_of_mem h1
    obtain ⟨r, hr⟩ := hok.slots id slot hid h2
    have := hok.slot r id hr
    rw [hid] at this
    simp only [Option.some.injEq] at this
    subst this
    exact ⟨id, (hok.named _ id).2 ⟨rfl, r, hr⟩⟩
  · rintro ⟨id, hid⟩
    obtain ⟨rfl, r, hr⟩ := (hok.named n id).1 hid
    exact ⟨_, List.mem_of_getElem? (hok.slot r id hr), rfl, rfl⟩

/-- In an orderly world all rounds of a test address the same nodes. -/
theorem same_addressees {w : World} (hw : Orderly w) {glob : Str → Str → Bool} {p : Problem}
    {m : NodeServiceMap} (hp : p.nodes = activeNodes (w.registry 0))
    (hm : placeServices glob p = .ok m) :
    ∃ to, addressees (w.registry 1) (m.map (·.1)) = .ok to ∧
      addressees (w.registry 2) (m.map (·.1)) = .ok to ∧
      addressees (w.registry 3) (m.map (·.1)) = .ok to ∧
      addressees (w.registry 0) (m.map (·.1)) = .ok to ∧
      to.map (·.1) = m.map (·.1) ∧ (to.map (·.1)).Nodup ∧
      (∀ n, n ∈ to.map (·.1) ↔ n ∈ (activeNodes (w.registry 0)).map (·.1)) ∧
      ∀ n id, (n, id) ∈ to → (w.registry 0).byAlias.find n = some id := by
  obtain ⟨l0, h0⟩ := hw.history
  obtain ⟨l1, h1⟩ := grows_history hw.grows1 h0
  obtain ⟨l2, h2⟩ := grows_history hw.grows2 h1
  obtain ⟨hnd, hsub⟩ := keys_placeServices hm
  rw [hp] at hsub
  have hf : ∀ n ∈ m.map (·.1), ∃ id, (w.registry 0).byAlias.find n = some id :=
    fun n hn => (activeNodes_find h0).1 (hsub n hn)
  obtain ⟨to, hto⟩ := addressees_found hf
  have c1 : ∀ n ∈ m.map (·.1), (w.registry 0).byAlias.find n = (w.registry 1).byAlias.find n := by
    intro n hn
    obtain ⟨id, hid⟩ := hf n hn
    rw [hid, find_grows hw.grows1 h0 hid]
  have c2 : ∀ n ∈ m.map (·.1), (w.registry 1).byAlias.find n = (w.registry 2).byAlias.find n := by
    intro n hn
    obtain ⟨id, hid⟩ := hf n hn
    have h3 := find_grows hw.grows1 h0 hid
    rw [h3, find_grows hw.grows2 h1 h3]
  have c3 : ∀ n ∈ m.map (·.1), (w.registry 2).byAlias.find n = (w.registry 3).byAlias.find n := by
    intro n hn
    obtain ⟨id, hid⟩ := hf n hn
    have h3 := find_grows hw.grows2 h1 (find_grows hw.grows1 h0 hid)
    rw [h3, find_grows hw.grows3 h2 h3]
  have a1 : addressees (w.registry 1) (m.map (·.1)) = .ok to := by
    rw [← addressees_congr c1]; exact hto
  have a2 : addressees (w.registry 2) (m.map (·.1)) = .ok to := by
    rw [← addressees_congr c2]; exact a1
  have a3 : addressees (w.registry 3) (m.map (·.1)) = .ok to := by
    rw [← addressees_congr c3]; exact a2
  obtain ⟨k1, k2⟩ := addressees_ok hto
  refine ⟨to, a1, a2, a3, hto, k1, by rw [k1]; exact hnd, ?_, k2⟩
  intro n
  rw [k1]
  constructor
  · exact hsub n
  · intro hn
    have := C16_every_node_listed glob p m hm n (by rw [hp]; exact hn)
    exact this

end Distbench.Sequencer
