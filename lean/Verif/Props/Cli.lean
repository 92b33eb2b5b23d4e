import Verif.Spec.Cli
import Verif.Spec.Sequencer
import Verif.Lemmas.Names
import Verif.Props.Sequencer
import Verif.Props.Config

/-! Properties of the command line: C176 to C178. -/

namespace Distbench.Cli
open Services Placement Tables Spec

/-! ### C176: the arguments of a node manager -/

private theorem beginsWithNode_iff (a : Str) : beginsWithNode a = true ↔ LooksLikeNode a := by
  unfold beginsWithNode LooksLikeNode
  rw [List.isPrefixOf_iff_prefix]
  constructor
  · rintro ⟨t, ht⟩; exact ⟨t, ht.symm⟩
  · rintro ⟨t, ht⟩; exact ⟨t, ht.symm⟩

private theorem dropWhile_digits {l : Str} (h : ∀ c ∈ l, isCDigit c = true) :
    l.dropWhile isSpace = l := by
  cases l with
  | nil => rfl
  | cons c l =>
    have hc := h c List.mem_cons_self
    have : isSpace c = false := by
      unfold isSpace isCSpace
      unfold isCDigit at hc
      simp only [Bool.and_eq_true, decide_eq_true_eq] at hc
      simp only [Bool.or_eq_false_iff, decide_eq_false_iff_not]
      refine ⟨⟨⟨⟨⟨?_, ?_⟩, ?_⟩, ?_⟩, ?_⟩, ?_⟩ <;> rintro rfl <;> revert hc <;> decide
    rw [List.dropWhile_cons, if_neg (by simp [this])]

theorem simpleAtoi64_digits (n : Nat) (h : n < 2 ^ 63) : simpleAtoi64 (digits n) = some (n : Int) := by
  have hd := digits_isDigit n
  unfold simpleAtoi64
  rw [dropWhile_digits hd, dropWhile_digits (l := (digits n).reverse) (by simpa using hd),
    List.reverse_reverse]
  cases hc : digits n with
  | nil => exact absurd hc (digits_ne_nil n)
  | cons c cs =>
    rw [hc] at hd
    have h1 := hd c List.mem_cons_self
    have hne : c ≠ '-' ∧ c ≠ '+' := by
      constructor <;> rintro rfl <;> revert h1 <;> decide
    have hv := digitsValue_digits n
    rw [hc] at hv
    have hall : (c :: cs).all isCDigit = true := List.all_eq_true.2 hd
    dsimp only
    rw [if_neg (not_or.2 hne), if_neg hne.1, hv, if_pos ⟨by simp, hall⟩,
      if_pos (show InI64 (n : Int) from ⟨by omega, by omega⟩)]

theorem simpleAtoi32_digits (n : Nat) (h : n < 2 ^ 31) :
    Fanout.simpleAtoi32 (digits n) = some (n : Int) := by
  unfold Fanout.simpleAtoi32
  rw [simpleAtoi64_digits n (by omega)]
  dsimp only
  rw [if_pos (show InI32 (n : Int) from ⟨by omega, by omega⟩)]

private theorem namesNode_eq (a : Str) (n : Nat) :
    NamesNode a n ↔ a = "node".toList ++ digits n ∧ n < 2 ^ 31 := by
  unfold NamesNode
  rw [digits_toString, String.toList_append]

private theorem preassigned_iff (a : Str) (id : Int) :
    preassignedId a = some id ↔ ∃ n : Nat, NamesNode a n ∧ id = n := by
  constructor
  · intro h
    unfold preassignedId at h
    split at h
    · cases h
    · rename_i v hv
      split at h
      · cases h
      · rename_i hc
        cases h
        rw [not_or, Decidable.not_not] at hc
        refine ⟨id.toNat, (namesNode_eq _ _).2 ⟨?_, ?_⟩, by omega⟩
        · rw [← showInt_nonneg (by omega)]; exact hc.1.symm
        · unfold Fanout.simpleAtoi32 at hv
          split at hv
          · split at hv
            · rename_i hi
              cases hv
              unfold InI32 at hi
              omega
            · cases hv
          · cases hv
  · rintro ⟨n, hn, rfl⟩
    obtain ⟨rfl, hlt⟩ := (namesNode_eq _ _).1 hn
    unfold preassignedId
    have : List.drop 4 ("node".toList ++ digits n) = digits n := rfl
    rw [this, simpleAtoi32_digits n hlt]
    dsimp only
    rw [if_neg]
    rw [showInt_nonneg (by omega)]
    rintro (h | h)
    · exact h rfl
    · omega

private theorem split_gives (x : Str) :
    (∀ n v, splitOnce x = [n, v] ↔ GivesAttribute x ⟨n, v⟩) ∧
    ((∀ n v, splitOnce x ≠ [n, v]) ↔ ¬ ∃ a, GivesAttribute x a) := by
  have key : ∀ n v, splitOnce x = [n, v] ↔ GivesAttribute x ⟨n, v⟩ := by
    intro n v
    unfold GivesAttribute splitOnce
    have htd := List.takeWhile_append_dropWhile (p := fun c => decide (c ≠ '=')) (l := x)
    constructor
    · intro h
      split at h
      · cases h
      · rename_i c value hd
        have h1 : c = '=' := by
          have := List.head_dropWhile_not (p := fun c => decide (c ≠ '=')) (l := x) (by rw [hd]; simp)
          simp only [hd, List.head_cons] at this
          simpa using this
        simp only [List.cons.injEq, and_true] at h
        obtain ⟨rfl, rfl⟩ := h
        rw [hd, h1] at htd
        refine ⟨htd.symm, ?_⟩
        intro hm
        have := List.all_takeWhile (p := fun c => decide (c ≠ '=')) (l := x)
        have := List.all_eq_true.1 this _ hm
        simp at this
    · rintro ⟨hx, hn⟩
      have h1 : x.takeWhile (fun c => decide (c ≠ '=')) = n := by
        rw [hx, List.takeWhile_append_of_pos (by
          intro c hc
          simp only [decide_eq_true_eq]
          rintro rfl
          exact hn hc)]
        simp
      have h2 : x.dropWhile (fun c => decide (c ≠ '=')) = '=' :: v := by
        rw [hx, List.dropWhile_append_of_pos (by
          intro c hc
          simp only [decide_eq_true_eq]
          rintro rfl
          exact hn hc)]
        simp
      rw [h2, h1]
  refine ⟨key, ?_⟩
  constructor
  · rintro h ⟨⟨n, v⟩, ha⟩
    exact h n v ((key n v).2 ha)
  · intro h n v hs
    exact h ⟨_, (key n v).1 hs⟩

private theorem parseAttributes_iff (xs : List Str) (acc out : List Attribute) :
    parseAttributes xs acc = some out ↔ ∃ as, GiveAttributes xs as ∧ out = acc ++ as := by
  induction xs generalizing acc with
  | nil =>
    rw [parseAttributes]
    constructor
    · intro h; cases h; exact ⟨[], trivial, by simp⟩
    · rintro ⟨as, ha, rfl⟩
      cases as with
      | nil => simp
      | cons => exact absurd ha (by simp [GiveAttributes])
  | cons x xs ih =>
    rw [parseAttributes]
    split
    · rename_i n v hs
      rw [ih]
      have hg := ((split_gives x).1 n v).1 hs
      constructor
      · rintro ⟨as, ha, rfl⟩
        exact ⟨⟨n, v⟩ :: as, ⟨hg, ha⟩, by simp⟩
      · rintro ⟨as, ha, rfl⟩
        cases as with
        | nil => exact absurd ha (by simp [GiveAttributes])
        | cons a as =>
          obtain ⟨n', v'⟩ := a
          have := ((split_gives x).1 n' v').2 ha.1
          rw [hs] at this
          simp only [List.cons.injEq, and_true] at this
          obtain ⟨rfl, rfl⟩ := this
          exact ⟨as, ha.2, by simp⟩
    · rename_i hs
      constructor
      · intro h; cases h
      · rintro ⟨as, ha, rfl⟩
        cases as with
        | nil => exact absurd ha (by simp [GiveAttributes])
        | cons a as => exact absurd ((split_gives x).1 a.name a.value |>.2 ha.1) (hs _ _)

/-- C176.  The arguments are accepted, and give this id and these attributes, exactly if: either
the first is `nodeN`, the id is `N`, the first attribute says so, and the others are `name=value` and
give the other attributes in order; or the first does not begin with "node", all are `name=value`,
the id is -1 and the attributes are those given, in order. -/
theorem C176_arguments (arguments : List Str) (id : Int) (attributes : List Attribute) :
    nodeManagerArguments arguments = some (id, attributes) ↔
      (∃ (first : Str) (rest : List Str) (n : Nat) (given : List Attribute),
        arguments = first :: rest ∧ NamesNode first n ∧ id = n ∧ GiveAttributes rest given ∧
        attributes = ⟨"node_alias".toList, first⟩ :: given) ∨
      ((∀ first, arguments.head? = some first → ¬ LooksLikeNode first) ∧ id = -1 ∧
        GiveAttributes arguments attributes) := by
  unfold nodeManagerArguments
  have hnode : ∀ x n, NamesNode x n → LooksLikeNode x := fun x n h =>
    ⟨_, ((namesNode_eq _ _).1 h).1⟩
  cases arguments with
  | nil =>
    dsimp only
    constructor
    · intro h
      cases h
      exact Or.inr ⟨by simp, rfl, trivial⟩
    · rintro (⟨f, r, n, g, h, _⟩ | ⟨_, rfl, h⟩)
      · cases h
      · cases attributes with
        | nil => rfl
        | cons => exact absurd h (by simp [GiveAttributes])
  | cons first rest =>
    dsimp only
    split
    · rename_i hb
      have hl := (beginsWithNode_iff _).1 hb
      constructor
      · intro h
        split at h
        · cases h
        · rename_i v hv
          obtain ⟨n, hn, rfl⟩ := (preassigned_iff _ _).1 hv
          rw [Option.map_eq_some_iff] at h
          obtain ⟨as, has, he⟩ := h
          obtain ⟨g, hg, rfl⟩ := (parseAttributes_iff _ _ _).1 has
          cases he
          exact Or.inl ⟨first, rest, n, g, rfl, hn, rfl, hg, rfl⟩
      · rintro (⟨f, r, n, g, h, hn, rfl, hg, rfl⟩ | ⟨h, _⟩)
        · cases h
          rw [(preassigned_iff _ _).2 ⟨n, hn, rfl⟩]
          dsimp only
          rw [(parseAttributes_iff _ _ _).2 ⟨g, hg, rfl⟩]
          rfl
        · exact absurd hl (h first rfl)
    · rename_i hb
      have hl : ¬ LooksLikeNode first := fun h => hb ((beginsWithNode_iff _).2 h)
      rw [Option.map_eq_some_iff]
      constructor
      · rintro ⟨as, has, he⟩
        obtain ⟨g, hg, rfl⟩ := (parseAttributes_iff _ _ _).1 has
        cases he
        refine Or.inr ⟨?_, rfl, hg⟩
        intro f hf
        cases hf
        exact hl
      · rintro (⟨f, r, n, g, h, hn, rfl, hg, rfl⟩ | ⟨h, rfl, hg⟩)
        · cases h
          exact absurd (hnode _ _ hn) hl
        · exact ⟨_, (parseAttributes_iff _ _ _).2 ⟨_, hg, rfl⟩, rfl⟩

theorem accepted_preassigned {s : Sequencer.Registry} {h} (hh : Sequencer.History s h)
    {r : Sequencer.Registration} {k : Nat} {nm : Str} (ha : Accepted h r k nm)
    (hp : 0 ≤ r.preassigned) : r.preassigned = (k : Int) := by
  induction hh with
  | start => cases ha
  | @step s s' h r' a hh hr ih =>
    unfold Accepted at ha
    rw [List.mem_append, List.mem_singleton, Prod.mk.injEq] at ha
    rcases ha with ha | ⟨rfl, rfl⟩
    · exact ih ha
    · obtain ⟨h1, h2⟩ := Sequencer.C43_answer hh hr
      by_cases hex : ∃ id' n', Accepted h r id' n'
      · obtain ⟨id', n', hx⟩ := hex
        obtain ⟨rfl, rfl⟩ := h1 _ _ hx
        exact ih hx
      · exact (h2 hex).1 hp

/-- C176.  A node started as `nodeN` is registered as node `N`, under the name given on the command
line, or not at all. -/
theorem C176_registered {s s' : Sequencer.Registry} {h} (hh : Sequencer.History s h)
    {first : Str} {rest : List Str} {n : Nat} (hn : NamesNode first n) {id : Int}
    {attributes : List Attribute}
    (hargs : nodeManagerArguments (first :: rest) = some (id, attributes)) (place : Place)
    {answer : Option (Nat × Str)}
    (hr : Sequencer.register s (registrationOf place id attributes) = .ok (s', answer)) :
    answer = none ∨ answer = some (n, first) := by
  have hid : id = n := by
    rcases (C176_arguments _ _ _).1 hargs with ⟨f, r, m, g, he, hm, rfl, _⟩ | ⟨hno, _⟩
    · cases he
      have h1 := ((namesNode_eq _ _).1 hn).1
      have h2 := ((namesNode_eq _ _).1 hm).1
      rw [h1] at h2
      rw [digits_inj (List.append_cancel_left h2)]
    · exact absurd ⟨_, ((namesNode_eq _ _).1 hn).1⟩ (hno first rfl)
  cases answer with
  | none => exact Or.inl rfl
  | some a =>
    obtain ⟨k, nm⟩ := a
    right
    have hacc : Accepted (h ++ [(registrationOf place id attributes, some (k, nm))])
        (registrationOf place id attributes) k nm := by simp [Accepted]
    have hname := (Sequencer.C43_unique (hh.step hr) hacc hacc).2.2
    have hk : k = n := by
      obtain ⟨h1, h2⟩ := Sequencer.C43_answer hh hr
      by_cases hex : ∃ id' n', Accepted h (registrationOf place id attributes) id' n'
      · obtain ⟨id', n', hx⟩ := hex
        obtain ⟨rfl, rfl⟩ := h1 _ _ hx
        have := accepted_preassigned hh hx (by show (0 : Int) ≤ id; omega)
        have h3 : (registrationOf place id attributes).preassigned = id := rfl
        omega
      · have h3 : (registrationOf place id attributes).preassigned = id := rfl
        have := (h2 hex).1 (by omega)
        omega
    subst hk
    rw [hname, ← digits_toString, ((namesNode_eq _ _).1 hn).1]

/-- `distbench node_manager node5 rack=a/b=c`. -/
def sampleArguments : List Str := ["node5".toList, "rack=a/b=c".toList]

theorem sample_arguments : nodeManagerArguments sampleArguments = some (5,
    [⟨"node_alias".toList, "node5".toList⟩, ⟨"rack".toList, "a/b=c".toList⟩]) := by decide +kernel

example := (C176_arguments _ _ _).1 sample_arguments
example : nodeManagerArguments ["node05".toList] = none := by decide +kernel
example : nodeManagerArguments ["rack=1".toList, "plain".toList] = none := by decide +kernel

/-- The place of the sample node. -/
def samplePlace : Place where
  hostname := "b".toList
  port := 4000
  controlIp := none
  serviceAddress := "dns:///b:4000".toList

example : NamesNode "node5".toList 5 ∧
    (Sequencer.register {} (registrationOf samplePlace 5
      [⟨"node_alias".toList, "node5".toList⟩, ⟨"rack".toList, "a/b=c".toList⟩])).bind
        (fun x => .ok x.2) = .ok (some (5, "node5".toList)) :=
  ⟨⟨by decide, by decide⟩, by decide +kernel⟩

/-! ### C177: attributes can be given any name -/

/-- The property fails: `node_type=fast` is refused when it comes first. -/
theorem C177_negation : ¬ ∀ (arguments : List Str) (given : List Attribute),
    GiveAttributes arguments given → nodeManagerArguments arguments = some (-1, given) := by
  intro h
  have := h ["node_type=fast".toList] [⟨"node_type".toList, "fast".toList⟩]
    ⟨⟨by decide, by decide⟩, trivial⟩
  revert this
  decide +kernel

/-- The refusal is total: `name=value` arguments of which the first name begins with "node" never
start a node manager. -/
theorem C177_refused (first : Str) (rest : List Str) (a : Attribute) (ha : GivesAttribute first a)
    (hn : LooksLikeNode first) : nodeManagerArguments (first :: rest) = none := by
  cases h : nodeManagerArguments (first :: rest) with
  | none => rfl
  | some r =>
    obtain ⟨id, as⟩ := r
    rcases (C176_arguments _ _ _).1 h with ⟨f, r, n, g, he, hf, _⟩ | ⟨hno, _⟩
    · cases he
      have h1 := ((namesNode_eq _ _).1 hf).1
      have hmem : '=' ∈ first := by rw [ha.1]; simp
      rw [h1, List.mem_append] at hmem
      rcases hmem with hm | hm
      · exact absurd hm (by decide)
      · exact absurd (digits_isDigit _ _ hm) (by decide)
    · exact absurd hn (hno first rfl)

/-- Missing from the full property: a first argument that begins with "node".  Otherwise, and for
all arguments after the first, the names and values are free: also empty ones, and values that
contain `=`. -/
theorem C177_accepted_partial (arguments : List Str) (given : List Attribute)
    (h : GiveAttributes arguments given)
    (hfirst : ∀ first, arguments.head? = some first → ¬ LooksLikeNode first) :
    nodeManagerArguments arguments = some (-1, given) :=
  (C176_arguments _ _ _).2 (Or.inr ⟨hfirst, rfl, h⟩)

/-- After `nodeN` any attributes are accepted, also ones whose name begins with "node". -/
theorem C177_after_node (first : Str) (n : Nat) (hn : NamesNode first n) (rest : List Str)
    (given : List Attribute) (h : GiveAttributes rest given) :
    nodeManagerArguments (first :: rest) =
      some ((n : Int), ⟨"node_alias".toList, first⟩ :: given) :=
  (C176_arguments _ _ _).2 (Or.inl ⟨first, rest, n, given, rfl, hn, rfl, h, rfl⟩)

example : GiveAttributes ["rack=".toList, "node_type=a=b".toList]
    [⟨"rack".toList, []⟩, ⟨"node_type".toList, "a=b".toList⟩] ∧
    ∀ first, ["rack=".toList, "node_type=a=b".toList].head? = some first → ¬ LooksLikeNode first := by
  refine ⟨⟨⟨by decide, by decide⟩, ⟨by decide, by decide⟩, trivial⟩, ?_⟩
  rintro first h ⟨t, ht⟩
  cases h
  revert ht
  simp

/-! ### C178: the verdict of check_test -/

/-- Whether it succeeds, without the value. -/
private def verdict {α : Type} (o : Outcome α) : Outcome Unit := o.bind fun _ => .ok ()

private theorem verdict_bind {α β : Type} {o : Outcome α} {f f' : α → Outcome β}
    (h : ∀ a, o = .ok a → verdict (f a) = verdict (f' a)) :
    verdict (o.bind f) = verdict (o.bind f') := by
  cases o with
  | ok a => exact h a rfl
  | error m => rfl
  | ub => rfl
  | crash => rfl

private theorem verdict_bind2 {α α' β β' : Type} {o : Outcome α} {o' : Outcome α'} {f : α → Outcome β}
    {f' : α' → Outcome β'} (ho : verdict o = verdict o')
    (h : ∀ a a', o = .ok a → o' = .ok a' → verdict (f a) = verdict (f' a')) :
    verdict (o.bind f) = verdict (o'.bind f') := by
  cases o <;> cases o' <;> first | (cases ho; done) | skip
  · exact h _ _ rfl rfl
  · simp only [verdict, Outcome.bind] at ho ⊢; exact ho
  · rfl
  · rfl

private theorem verdict_mapIdx {α β γ : Type} {f : Nat → α → Outcome β} {g : Nat → α → Outcome γ}
    (h : ∀ i a, verdict (f i a) = verdict (g i a)) (i : Nat) (l : List α) :
    verdict (mapIdxOutcome f i l) = verdict (mapIdxOutcome g i l) := by
  induction l generalizing i with
  | nil => rfl
  | cons a l ih =>
    rw [mapIdxOutcome, mapIdxOutcome]
    refine verdict_bind2 (h i a) (fun b b' _ _ => ?_)
    exact verdict_bind2 (ih (i + 1)) (fun _ _ _ _ => rfl)

private theorem verdict_ok {α : Type} {o : Outcome α} : verdict o = .ok () ↔ ∃ a, o = .ok a := by
  cases o <;> simp [verdict, Outcome.bind]

private theorem verdict_error {α : Type} {o : Outcome α} {m : String} :
    verdict o = .error m ↔ o = .error m := by
  cases o <;> simp [verdict, Outcome.bind]

/-- `cs` are the canonical forms of `ss`. -/
private def CanonicalOf (ss cs : List ServiceSpec) : Prop :=
  cs.length = ss.length ∧ ∀ (i : Nat) s, ss[i]? = some s →
    ∃ c, cs[i]? = some c ∧ getCanonicalServiceSpec s = .ok c

private theorem canonical_name_count {raw c : ServiceSpec} (hfit : FieldsFit raw)
    (h : getCanonicalServiceSpec raw = .ok c) : c.name = raw.name ∧ raw.getCount ≤ c.getCount := by
  obtain ⟨hw, -, rfl⟩ := (C08_canonical_iff raw c hfit).1 h
  split
  · refine ⟨rfl, ?_⟩
    unfold ServiceSpec.getCount
    cases hc : raw.count with
    | some n =>
      have := hw.2.2.2.2.2 (by assumption) n hc
      simp only [Option.getD_some]; omega
    | none =>
      simp only [Option.getD_none, Option.getD_some]
      obtain ⟨_, _, hx, hy, hz, _⟩ := hw
      unfold gridCells
      have pos : ∀ o : Option Int, (∀ n, o = some n → 0 < n) → 0 ≤ o.getD 1 := by
        intro o ho
        cases o with
        | none => decide
        | some n => have := ho n rfl; simp only [Option.getD_some]; omega
      exact Int.mul_nonneg (Int.mul_nonneg (pos _ hx) (pos _ hy)) (pos _ hz)
  · exact ⟨rfl, Int.le_refl _⟩

private theorem canonicalOf_cons {s c : ServiceSpec} {ss cs : List ServiceSpec}
    (h : CanonicalOf (s :: ss) (c :: cs)) : getCanonicalServiceSpec s = .ok c ∧ CanonicalOf ss cs := by
  refine ⟨?_, by simpa using h.1, ?_⟩
  · obtain ⟨c', hc', hg⟩ := h.2 0 s rfl
    cases hc'
    exact hg
  · intro i s' hs'
    exact h.2 (i + 1) s' hs'

private theorem canonical_names {ss cs : List ServiceSpec} (hfit : ∀ s ∈ ss, FieldsFit s)
    (h : CanonicalOf ss cs) : cs.map (·.name) = ss.map (·.name) := by
  induction ss generalizing cs with
  | nil =>
    have := List.length_eq_zero_iff.1 h.1
    subst this
    rfl
  | cons s ss ih =>
    cases cs with
    | nil => exact absurd h.1 (by simp)
    | cons c cs =>
      obtain ⟨h1, h2⟩ := canonicalOf_cons h
      rw [List.map_cons, List.map_cons, ih (fun s hs => hfit s (List.mem_cons_of_mem _ hs)) h2,
        (canonical_name_count (hfit s List.mem_cons_self) h1).1]

private theorem find_set (m : NameMap) (k n : Str) (v : Int) :
    (m.set k v).find n = if k = n then some v else m.find n := by
  induction m with
  | nil => rfl
  | cons e m ih =>
    obtain ⟨k', v'⟩ := e
    rw [NameMap.set]
    split
    · rename_i hk
      subst hk
      rw [NameMap.find, NameMap.find]
      split <;> rfl
    · rename_i hk
      rw [NameMap.find, NameMap.find, ih]
      by_cases h1 : k' = n
      · rw [if_pos h1, if_pos h1, if_neg (by rintro rfl; exact hk h1)]
      · rw [if_neg h1, if_neg h1]

/-- Every size in the first map is in the second, and at least as large. -/
private def LessEq (m m' : NameMap) : Prop :=
  ∀ n v, m.find n = some v → ∃ v', m'.find n = some v' ∧ v ≤ v'

private theorem sizes_le {ss cs : List ServiceSpec} (hfit : ∀ s ∈ ss, FieldsFit s)
    (h : CanonicalOf ss cs) :
    LessEq (enumerateServiceSizes ss) (enumerateServiceSizes cs) := by
  have key : ∀ (ss cs : List ServiceSpec) (m m' : NameMap), (∀ s ∈ ss, FieldsFit s) →
      CanonicalOf ss cs → LessEq m m' →
      LessEq (ss.foldl (fun ret s => ret.set s.name s.getCount) m)
        (cs.foldl (fun ret s => ret.set s.name s.getCount) m') := by
    intro ss
    induction ss with
    | nil =>
      intro cs m m' _ h hm
      have := List.length_eq_zero_iff.1 h.1
      subst this
      exact hm
    | cons s ss ih =>
      intro cs m m' hf h hm
      cases cs with
      | nil => exact absurd h.1 (by simp)
      | cons c cs =>
        obtain ⟨h1, h2⟩ := canonicalOf_cons h
        obtain ⟨hn, hle⟩ := canonical_name_count (hf s List.mem_cons_self) h1
        refine ih cs _ _ (fun s hs => hf s (List.mem_cons_of_mem _ hs)) h2 ?_
        intro n v hv
        rw [find_set] at hv
        rw [find_set, hn]
        split at hv
        · rename_i he
          cases hv
          exact ⟨_, by rw [if_pos he], hle⟩
        · rename_i he
          obtain ⟨v', hv', hl⟩ := hm n v hv
          exact ⟨v', by rw [if_neg he]; exact hv', hl⟩
  exact key ss cs [] [] hfit h (fun n v hv => by cases hv)

private theorem validate_mono {m m' : NameMap} (h : LessEq m m') {t : RpcReplayTrace}
    (ht : validateRpcReplayTrace t m = .ok ()) : validateRpcReplayTrace t m' = .ok () := by
  rw [C42_accepted_iff_partial] at ht ⊢
  obtain ⟨c, s, nc, ns, h1, h2, h3, h4, h5⟩ := ht
  obtain ⟨nc', h3', l1⟩ := h _ _ h3
  obtain ⟨ns', h4', l2⟩ := h _ _ h4
  refine ⟨c, s, nc', ns', h1, h2, h3', h4', fun r hr => ?_⟩
  have := h5 r hr
  omega

private theorem initTraces_congr {m m' : NameMap} {ts : List RpcReplayTrace}
    (h : ∀ t ∈ ts, validateRpcReplayTrace t m = .ok ())
    (h' : ∀ t ∈ ts, validateRpcReplayTrace t m' = .ok ()) (i : Nat) (acc : NameMap) :
    initTraces m ts i acc = initTraces m' ts i acc := by
  induction ts generalizing i acc with
  | nil => rfl
  | cons t ts ih =>
    rw [initTraces, initTraces]
    split
    · rfl
    · rw [Outcome.bind_ok_of (h t List.mem_cons_self), Outcome.bind_ok_of (h' t List.mem_cons_self)]
      exact ih (fun t ht => h t (List.mem_cons_of_mem _ ht))
        (fun t ht => h' t (List.mem_cons_of_mem _ ht)) _ _

private theorem rpcDefinition_verdict (e : Env) (cfg : Tables.Config) (cs : List ServiceSpec)
    (hfit : ∀ s ∈ cfg.services, FieldsFit s) (hc : CanonicalOf cfg.services cs) (name : Str)
    (services : NameMap) (rg sg : Gens) (p : PayloadMap) (i : Nat) (spec : RpcSpec) :
    verdict (rpcDefinition e cfg name services rg sg p i spec) =
      verdict (rpcDefinition e { cfg with services := cs } name services rg sg p i spec) := by
  unfold rpcDefinition
  split
  · rfl
  · rename_i si hsi
    dsimp only
    cases hs : cfg.services[si.toNat]? with
    | none =>
      have : cs[si.toNat]? = none := by
        rw [List.getElem?_eq_none_iff] at hs ⊢
        rw [hc.1]; exact hs
      rw [this]
    | some s =>
      obtain ⟨c, hcs, hcan⟩ := hc.2 _ _ hs
      rw [hcs]
      have hn := (canonical_name_count (hfit s (List.mem_of_getElem? hs)) hcan).1
      refine verdict_bind2 rfl (fun a a' ha ha' => ?_)
      cases ha
      cases ha'
      rw [hn]
      refine verdict_bind2 rfl (fun ch ch' hch hch' => ?_)
      rw [hch] at hch'
      cases hch'
      split
      · rfl
      · exact verdict_bind2 rfl (fun f f' hf hf' => rfl)

private theorem initRpcDefinitions_verdict (e : Env) (cfg : Tables.Config) (cs : List ServiceSpec)
    (hfit : ∀ s ∈ cfg.services, FieldsFit s) (hc : CanonicalOf cfg.services cs) (name : Str)
    (services : NameMap) (rg sg : Gens) (p : PayloadMap) (rpcs : List RpcSpec) (i : Nat) :
    verdict (initRpcDefinitions e cfg name services rg sg p rpcs i) =
      verdict (initRpcDefinitions e { cfg with services := cs } name services rg sg p rpcs i) := by
  induction rpcs generalizing i with
  | nil => rfl
  | cons r rest ih =>
    rw [initRpcDefinitions, initRpcDefinitions]
    refine verdict_bind2 (rpcDefinition_verdict e cfg cs hfit hc name services rg sg p i r)
      (fun _ _ _ _ => ?_)
    exact verdict_bind2 (ih (i + 1)) (fun _ _ _ _ => rfl)

private theorem rpcEntry_verdict (cfg : Tables.Config) (cs : List ServiceSpec) (name : Str)
    (services li : NameMap) (d d' : List RpcDefinition) (r : RpcSpec) :
    verdict (rpcEntry cfg name services li d r) =
      verdict (rpcEntry { cfg with services := cs } name services li d' r) := by
  unfold rpcEntry
  split
  · rfl
  · split
    · rfl
    · split
      · rfl
      · split
        · rfl
        · dsimp only
          split <;> rfl

private theorem initTables_verdict (e : Env) (cfg : Tables.Config) (cs : List ServiceSpec)
    (hfit : ∀ s ∈ cfg.services, FieldsFit s) (hc : CanonicalOf cfg.services cs)
    (htr : ∀ t ∈ cfg.traces, validateRpcReplayTrace t (enumerateServiceSizes cfg.services) = .ok ())
    (name : Str) :
    verdict (initTables e cfg name) = verdict (initTables e { cfg with services := cs } name) := by
  unfold initTables
  have hst : enumerateServiceTypes cs = enumerateServiceTypes cfg.services := by
    unfold enumerateServiceTypes
    rw [canonical_names hfit hc]
  dsimp only
  rw [hst]
  refine verdict_bind (fun rg _ => ?_)
  refine verdict_bind (fun dg _ => ?_)
  refine verdict_bind (fun sg _ => ?_)
  refine verdict_bind (fun p _ => ?_)
  refine verdict_bind2 (initRpcDefinitions_verdict e cfg cs hfit hc name _ rg sg p cfg.rpcs 0)
    (fun d d' _ _ => ?_)
  refine verdict_bind (fun a _ => ?_)
  rw [initTraces_congr htr (fun t ht => validate_mono (sizes_le hfit hc) (htr t ht)) 0 []]
  refine verdict_bind (fun tr _ => ?_)
  refine verdict_bind (fun ls _ => ?_)
  exact verdict_bind2 (verdict_mapIdx (fun i r => rpcEntry_verdict cfg cs name _ _ d d' r) 0 cfg.rpcs)
    (fun _ _ _ _ => rfl)

private theorem canonicalDescription_parts {cfg out : Tables.Config}
    (h : canonicalDescription cfg = .ok out) :
    ∃ cs, out = { cfg with services := cs } ∧ CanonicalOf cfg.services cs ∧
      ∀ t ∈ cfg.traces, validateRpcReplayTrace t (enumerateServiceSizes cfg.services) = .ok () := by
  simp only [canonicalDescription, Outcome.bind_ok] at h
  obtain ⟨sv, hsv, ⟨⟩, htr, ⟨⟩, hit, ⟨⟩, hpr, h⟩ := h
  injection h with h
  obtain ⟨h1, h2⟩ := mapIdx_ok hsv
  exact ⟨sv, h.symm, ⟨h1, h2⟩, fun t ht => forOutcome_ok.1 htr t ht⟩

private theorem engine_verdict {e : Env} {cfg : Tables.Config} {s raw : ServiceSpec}
    (hnd : (cfg.services.map (·.name)).Nodup) (hs : s ∈ cfg.services) (hne : s.name ≠ [])
    (hfit : FieldsFit raw) (hcan : getCanonicalServiceSpec raw = .ok s) {g : GridIndex}
    (hg : InGrid s g) : initializeConfig e cfg s.name g = initTables e cfg s.name := by
  obtain ⟨i, ⟨h0, hi, hsi⟩, hgi, -⟩ := (C06_grid_instance_bijection raw s hfit hcan).2 g hg
  unfold initializeConfig
  rw [if_neg hne, Outcome.bind_ok_of (find_service hnd hs), hgi]
  simp only
  have hname : ∃ nm, getInstanceName s i = some nm := by
    unfold getInstanceName
    rw [hsi]
    cases s.xSize with
    | none => exact ⟨_, rfl⟩
    | some x =>
      cases s.zSize with
      | some z => exact ⟨_, rfl⟩
      | none =>
        cases s.ySize with
        | some y => exact ⟨_, rfl⟩
        | none => exact ⟨_, rfl⟩
  obtain ⟨nm, hnm⟩ := hname
  rw [hnm]

private theorem mem_canonical {ss cs : List ServiceSpec} (hc : CanonicalOf ss cs) {c : ServiceSpec}
    (h : c ∈ cs) : ∃ s ∈ ss, getCanonicalServiceSpec s = .ok c := by
  obtain ⟨i, hi, rfl⟩ := List.mem_iff_getElem.1 h
  have hlt : i < ss.length := hc.1 ▸ hi
  obtain ⟨c', h1, h2⟩ := hc.2 i ss[i] (List.getElem?_eq_getElem hlt)
  rw [List.getElem?_eq_getElem hi] at h1
  cases h1
  exact ⟨_, List.getElem_mem hlt, h2⟩

private theorem mem_raw {ss cs : List ServiceSpec} (hc : CanonicalOf ss cs) {s : ServiceSpec}
    (h : s ∈ ss) : ∃ c ∈ cs, getCanonicalServiceSpec s = .ok c := by
  obtain ⟨i, hi, rfl⟩ := List.mem_iff_getElem.1 h
  obtain ⟨c', h1, h2⟩ := hc.2 i ss[i] (List.getElem?_eq_getElem hi)
  exact ⟨c', List.mem_of_getElem? h1, h2⟩

/-- The tables that checking a service of the file builds. -/
private theorem raw_tables {e : Env} {cfg : Tables.Config} {s : ServiceSpec}
    (hnd : (cfg.services.map (·.name)).Nodup) (hs : s ∈ cfg.services) {g : GridIndex} :
    (∀ t, initializeConfig e cfg s.name g = .ok t →
      s.name ≠ [] ∧ initTables e cfg s.name = .ok t) ∧
    (∀ m, initializeConfig e cfg s.name g = .error m →
      s.name ≠ [] ∧ initTables e cfg s.name = .error m) := by
  unfold initializeConfig
  split
  · exact ⟨(fun t h => by cases h), (fun m h => by cases h)⟩
  · rename_i hne
    rw [Outcome.bind_ok_of (find_service hnd hs)]
    split
    · exact ⟨(fun t h => by cases h), (fun m h => by cases h)⟩
    · split
      · exact ⟨(fun t h => by cases h), (fun m h => by cases h)⟩
      · exact ⟨fun t h => ⟨hne, h⟩, fun m h => ⟨hne, h⟩⟩

private theorem one_accepted {e : Env} {cfg out : Tables.Config}
    (hnd : (cfg.services.map (·.name)).Nodup) (hfit : ∀ s ∈ cfg.services, FieldsFit s)
    (hcan : canonicalDescription cfg = .ok out) (h : validateTrafficConfig e cfg = .ok ()) :
    ∀ s ∈ out.services, ∀ g, InGrid s g → ∃ t, initializeConfig e out s.name g = .ok t := by
  obtain ⟨cs, rfl, hc, htr⟩ := canonicalDescription_parts hcan
  intro s hs g hg
  obtain ⟨raw, hraw, hcr⟩ := mem_canonical hc hs
  have hname := (canonical_name_count (hfit raw hraw) hcr).1
  obtain ⟨t, ht⟩ := validateServices_ok.1 h raw hraw
  obtain ⟨hne, hT⟩ := (raw_tables hnd hraw).1 t ht
  rw [engine_verdict (cfg := { cfg with services := cs })
    (by show (cs.map (·.name)).Nodup; rw [canonical_names hfit hc]; exact hnd) hs
    (hname ▸ hne) (hfit raw hraw) hcr hg, ← verdict_ok,
    ← initTables_verdict e cfg cs hfit hc htr, verdict_ok, hname]
  exact ⟨t, hT⟩

private theorem validateServices_error {e : Env} {cfg : Tables.Config} {ss : List ServiceSpec}
    {m : String} (h : validateServices e cfg ss = .error m) :
    ∃ s ∈ ss, initializeConfig e cfg s.name ⟨1, 1, 1⟩ = .error m := by
  induction ss with
  | nil => cases h
  | cons s ss ih =>
    rw [validateServices] at h
    cases hi : initializeConfig e cfg s.name ⟨1, 1, 1⟩ with
    | ok t =>
      rw [Outcome.bind_ok_of hi] at h
      obtain ⟨s', hs', h'⟩ := ih h
      exact ⟨s', List.mem_cons_of_mem _ hs', h'⟩
    | error m' =>
      rw [hi] at h
      cases h
      exact ⟨s, List.mem_cons_self, hi⟩
    | ub => rw [hi] at h; cases h
    | crash => rw [hi] at h; cases h

private theorem one_refused {e : Env} {cfg out : Tables.Config}
    (hnd : (cfg.services.map (·.name)).Nodup) (hfit : ∀ s ∈ cfg.services, FieldsFit s)
    (hcan : canonicalDescription cfg = .ok out) {m : String}
    (h : validateTrafficConfig e cfg = .error m) :
    ∃ s ∈ out.services, ∀ g, InGrid s g → initializeConfig e out s.name g = .error m := by
  obtain ⟨cs, rfl, hc, htr⟩ := canonicalDescription_parts hcan
  obtain ⟨raw, hraw, hi⟩ := validateServices_error h
  obtain ⟨hne, hT⟩ := (raw_tables hnd hraw).2 m hi
  obtain ⟨s, hs, hcr⟩ := mem_raw hc hraw
  have hname := (canonical_name_count (hfit raw hraw) hcr).1
  refine ⟨s, hs, fun g hg => ?_⟩
  rw [engine_verdict (cfg := { cfg with services := cs })
    (by show (cs.map (·.name)).Nodup; rw [canonical_names hfit hc]; exact hnd) hs
    (hname ▸ hne) (hfit raw hraw) hcr hg, ← verdict_error,
    ← initTables_verdict e cfg cs hfit hc htr, verdict_error, hname]
  exact hT

private theorem canonicalSequence_ok {tests canon : List Tables.Config}
    (h : canonicalSequence tests = .ok canon) :
    (∀ c ∈ canon, ∃ t ∈ tests, canonicalDescription t = .ok c) ∧
    (∀ t ∈ tests, ∃ c ∈ canon, canonicalDescription t = .ok c) := by
  induction tests generalizing canon with
  | nil => cases h; simp
  | cons t tests ih =>
    simp only [canonicalSequence, Outcome.bind_ok] at h
    obtain ⟨c, hc, cs, hcs, h⟩ := h
    cases h
    obtain ⟨i1, i2⟩ := ih hcs
    constructor
    · intro x hx
      rcases List.mem_cons.1 hx with rfl | hx
      · exact ⟨t, List.mem_cons_self, hc⟩
      · obtain ⟨t', h1, h2⟩ := i1 x hx
        exact ⟨t', List.mem_cons_of_mem _ h1, h2⟩
    · intro x hx
      rcases List.mem_cons.1 hx with rfl | hx
      · exact ⟨c, List.mem_cons_self, hc⟩
      · obtain ⟨t', h1, h2⟩ := i2 x hx
        exact ⟨t', List.mem_cons_of_mem _ h1, h2⟩

private theorem validateTests_ok {e : Env} {tests : List Tables.Config}
    (h : validateTests e tests = .ok ()) : ∀ t ∈ tests, validateTrafficConfig e t = .ok () := by
  induction tests with
  | nil => simp
  | cons t tests ih =>
    simp only [validateTests, Outcome.bind_ok] at h
    obtain ⟨⟨⟩, h1, h2⟩ := h
    intro x hx
    rcases List.mem_cons.1 hx with rfl | hx
    · exact h1
    · exact ih h2 x hx

private theorem validateTests_error {e : Env} {tests : List Tables.Config} {m : String}
    (h : validateTests e tests = .error m) : ∃ t ∈ tests, validateTrafficConfig e t = .error m := by
  induction tests with
  | nil => cases h
  | cons t tests ih =>
    rw [validateTests] at h
    cases hi : validateTrafficConfig e t with
    | ok u =>
      rw [Outcome.bind_ok_of hi] at h
      obtain ⟨s', hs', h'⟩ := ih h
      exact ⟨s', List.mem_cons_of_mem _ hs', h'⟩
    | error m' =>
      rw [hi] at h
      cases h
      exact ⟨t, List.mem_cons_self, hi⟩
    | ub => rw [hi] at h; cases h
    | crash => rw [hi] at h; cases h

/-- C178.  If check_test accepts a file, the test sequencer accepts all its tests, and in each of
them the engine of every instance of every service accepts the configuration the sequencer sends
out. -/
theorem C178_accepted (e : Env) (tests : List Tables.Config)
    (hnd : ∀ t ∈ tests, (t.services.map (·.name)).Nodup)
    (hfit : ∀ t ∈ tests, ∀ s ∈ t.services, FieldsFit s) (h : checkTest e tests = .ok ()) :
    ∃ sent, canonicalSequence tests = .ok sent ∧
      ∀ t ∈ sent, ∀ s ∈ t.services, ∀ g, InGrid s g → ∃ tables, initializeConfig e t s.name g = .ok tables := by
  simp only [checkTest, Outcome.bind_ok] at h
  obtain ⟨sent, hs, hv⟩ := h
  refine ⟨sent, hs, fun t ht => ?_⟩
  obtain ⟨raw, hraw, hc⟩ := (canonicalSequence_ok hs).1 t ht
  exact one_accepted (hnd raw hraw) (hfit raw hraw) hc (validateTests_ok hv raw hraw)

/-- C178.  If check_test refuses a file, then the test sequencer refuses it with the same message,
or in one of its tests every engine of one of the services refuses the configuration, with the same
message. -/
theorem C178_refused (e : Env) (tests : List Tables.Config)
    (hnd : ∀ t ∈ tests, (t.services.map (·.name)).Nodup)
    (hfit : ∀ t ∈ tests, ∀ s ∈ t.services, FieldsFit s) (m : String)
    (h : checkTest e tests = .error m) :
    canonicalSequence tests = .error m ∨
    ∃ sent, canonicalSequence tests = .ok sent ∧
      ∃ t ∈ sent, ∃ s ∈ t.services, ∀ g, InGrid s g → initializeConfig e t s.name g = .error m := by
  unfold checkTest at h
  cases hs : canonicalSequence tests with
  | error m' => rw [hs] at h; cases h; exact Or.inl rfl
  | ub => rw [hs] at h; cases h
  | crash => rw [hs] at h; cases h
  | ok sent =>
    right
    rw [Outcome.bind_ok_of hs] at h
    obtain ⟨raw, hraw, hv⟩ := validateTests_error h
    obtain ⟨t, ht, hc⟩ := (canonicalSequence_ok hs).2 raw hraw
    exact ⟨sent, rfl, t, ht, one_refused (hnd raw hraw) (hfit raw hraw) hc hv⟩

theorem sample_checked : checkTest sampleEnv [sampleConfig, sampleConfig] = .ok () := rfl

example := C178_accepted sampleEnv [sampleConfig, sampleConfig] (by decide)
  (by
    intro t ht s hs
    simp only [List.mem_cons, List.not_mem_nil, or_false, or_self] at ht
    subst ht
    revert s
    simp only [sampleConfig, List.mem_cons, List.not_mem_nil, or_false]
    rintro s (rfl | rfl) <;> (unfold FieldsFit; simp; decide)) sample_checked

-- a file in which an rpc has no action list: refused by check_test, and by the engines
example : checkTest sampleEnv [{ sampleConfig with actionLists := [] }] ≠ .ok () := by
  intro h; cases h

end Distbench.Cli
