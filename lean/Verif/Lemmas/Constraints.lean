import Verif.Spec.Placement
import Verif.Lemmas.Names

namespace Distbench.Placement
open Spec Services

/-! #### integer parsing -/

theorem strip_eq {pre mid post : Str} (hpre : ∀ c ∈ pre, isCSpace c = true)
    (hpost : ∀ c ∈ post, isCSpace c = true) (hne : mid ≠ [])
    (hhead : ∀ c ∈ mid.head?, isCSpace c = false) (hlast : ∀ c ∈ mid.getLast?, isCSpace c = false) :
    (((pre ++ mid ++ post).dropWhile isSpace).reverse.dropWhile isSpace).reverse = mid := by
  have h1 : (pre ++ mid ++ post).dropWhile isSpace = mid ++ post := by
    rw [List.append_assoc]
    refine (takeWhile_all_append (p := isSpace) (a := pre) (b := mid ++ post) hpre ?_).2
    cases mid with
    | nil => exact absurd rfl hne
    | cons c mid => simpa [isSpace] using hhead
  rw [h1, List.reverse_append]
  have h2 : (post.reverse ++ mid.reverse).dropWhile isSpace = mid.reverse := by
    refine (takeWhile_all_append (p := isSpace) (a := post.reverse) (b := mid.reverse)
      (by intro c hc; exact hpost c (List.mem_reverse.1 hc)) ?_).2
    rw [List.head?_reverse]
    exact hlast
  rw [h2, List.reverse_reverse]

theorem mem_takeWhile_imp {p : Char → Bool} {l : Str} {c : Char} (h : c ∈ l.takeWhile p) :
    p c = true := by
  induction l with
  | nil => simp at h
  | cons a l ih =>
    rw [List.takeWhile_cons] at h
    split at h
    · rcases List.mem_cons.1 h with rfl | h
      · assumption
      · exact ih h
    · simp at h

theorem strip_decomp (s : Str) : ∃ pre post, s = pre ++
      ((s.dropWhile isSpace).reverse.dropWhile isSpace).reverse ++ post ∧
    (∀ c ∈ pre, isCSpace c = true) ∧ (∀ c ∈ post, isCSpace c = true) := by
  refine ⟨s.takeWhile isSpace, ((s.dropWhile isSpace).reverse.takeWhile isSpace).reverse, ?_, ?_, ?_⟩
  · have h1 : s = s.takeWhile isSpace ++ s.dropWhile isSpace := List.takeWhile_append_dropWhile.symm
    have h2 : s.dropWhile isSpace = ((s.dropWhile isSpace).reverse.dropWhile isSpace).reverse ++
        ((s.dropWhile isSpace).reverse.takeWhile isSpace).reverse := by
      rw [← List.reverse_append, List.takeWhile_append_dropWhile, List.reverse_reverse]
    rw [List.append_assoc, ← h2, ← h1]
  · intro c hc; exact mem_takeWhile_imp hc
  · intro c hc; exact mem_takeWhile_imp (List.mem_reverse.1 hc)

theorem simpleAtoi64_iff (s : Str) (v : Int) : simpleAtoi64 s = some v ↔ DenotesInt s v := by
  constructor
  · intro h
    obtain ⟨pre, post, hs, hpre, hpost⟩ := strip_decomp s
    unfold simpleAtoi64 at h
    generalize ((s.dropWhile isSpace).reverse.dropWhile isSpace).reverse = mid at h hs
    cases mid with
    | nil => cases h
    | cons c cs =>
      simp only at h
      by_cases hb : (if c = '-' ∨ c = '+' then cs else c :: cs) ≠ [] ∧
          (if c = '-' ∨ c = '+' then cs else c :: cs).all isCDigit = true
      · rw [if_pos hb] at h
        by_cases hi : InI64 (if c = '-' then
            -(digitsValue 0 (if c = '-' ∨ c = '+' then cs else c :: cs) : Int)
            else digitsValue 0 (if c = '-' ∨ c = '+' then cs else c :: cs))
        · rw [if_pos hi] at h
          have hv := Option.some.inj h
          by_cases hm : c = '-'
          · subst hm
            simp only [if_true, true_or] at hb hv hi
            refine ⟨pre, ['-'], cs, post, by simpa using hs, hpre, hpost, by simp, hb.1,
              by simpa using hb.2, by simpa using hv.symm, by rw [← hv]; exact hi⟩
          · by_cases hp : c = '+'
            · subst hp
              simp only [hm, if_true, or_true, if_false] at hb hv hi
              refine ⟨pre, ['+'], cs, post, by simpa using hs, hpre, hpost, by simp, hb.1,
                by simpa using hb.2, by simpa using hv.symm, by rw [← hv]; exact hi⟩
            · simp only [hm, hp, or_self, if_false] at hb hv hi
              refine ⟨pre, [], c :: cs, post, by simpa using hs, hpre, hpost, by simp, hb.1,
                by simpa using hb.2, by simpa using hv.symm, by rw [← hv]; exact hi⟩
        · rw [if_neg hi] at h; cases h
      · rw [if_neg hb] at h; cases h
  · rintro ⟨pre, sign, ds, post, rfl, hpre, hpost, hsign, hne, hds, hv, hi⟩
    have hsp : ∀ c ∈ ds, isCSpace c = false := fun c hc => (isCDigit_facts (hds c hc)).1
    have hmid : ((((pre ++ sign ++ ds ++ post).dropWhile isSpace).reverse.dropWhile isSpace)).reverse
        = sign ++ ds := by
      have := strip_eq (pre := pre) (mid := sign ++ ds) (post := post) hpre hpost (by simp [hne])
        (by
          rcases hsign with rfl | rfl | rfl
          · intro c hc
            exact hsp c (List.mem_of_mem_head? hc)
          · simp; decide
          · simp; decide)
        (by
          intro c hc
          rw [List.getLast?_append, List.getLast?_eq_some_getLast hne] at hc
          simp only [Option.some_or, Option.mem_def, Option.some.injEq] at hc
          exact hsp c (hc ▸ List.getLast_mem hne))
      rw [← this]
      simp [List.append_assoc]
    unfold simpleAtoi64
    rw [hmid]
    have hall : ds.all isCDigit = true := by simpa using hds
    rcases hsign with rfl | rfl | rfl
    · cases ds with
      | nil => exact absurd rfl hne
      | cons d ds =>
        obtain ⟨_, hm, hp, _⟩ := isCDigit_facts (hds d (by simp))
        rw [if_neg (by simp)] at hv
        simp only [List.nil_append, hm, hp, or_self, if_false]
        rw [if_pos ⟨by simp, hall⟩, ← hv, if_pos hi]
    · rw [if_neg (by decide)] at hv
      have hc : ('+' : Char) ≠ '-' := by decide
      simp only [List.cons_append, List.nil_append, hc, or_true, if_true, if_false]
      rw [if_pos ⟨hne, hall⟩, ← hv, if_pos hi]
    · rw [if_pos rfl] at hv
      simp only [List.cons_append, List.nil_append, true_or, if_true]
      rw [if_pos ⟨hne, hall⟩, ← hv, if_pos hi]

/-! #### constraint checking -/

theorem anyTrue_sound {α : Type} {check : α → Outcome Bool} {P : α → Prop} {l : List α}
    (h : ∀ x ∈ l, ∀ b, check x = .ok b → (b = true ↔ P x)) {b : Bool} (hb : anyTrue check l = .ok b) :
    b = true ↔ ∃ x ∈ l, P x := by
  induction l with
  | nil => simp [anyTrue] at hb; simp [hb]
  | cons x xs ih =>
    rw [anyTrue] at hb
    cases hx : check x with
    | ok c =>
      have hpx := h x (by simp) c hx
      cases c with
      | true =>
        rw [hx] at hb
        simp only [Outcome.ok.injEq] at hb
        rw [← hb]
        simp only [true_iff]
        exact ⟨x, by simp, hpx.1 rfl⟩
      | false =>
        rw [hx] at hb
        have hn : ¬ P x := fun hp => by have := hpx.2 hp; cases this
        rw [ih (fun y hy => h y (by simp [hy])) hb]
        simp [hn]
    | error m => rw [hx] at hb; cases hb
    | ub => rw [hx] at hb; cases hb
    | crash => rw [hx] at hb; cases hb

theorem anyTrue_total {α : Type} {check : α → Outcome Bool} {l : List α}
    (h : ∀ x ∈ l, ∃ b, check x = .ok b) : ∃ b, anyTrue check l = .ok b := by
  induction l with
  | nil => exact ⟨_, rfl⟩
  | cons x xs ih =>
    rw [anyTrue]
    obtain ⟨b, hb⟩ := h x (by simp)
    rw [hb]
    cases b with
    | true => exact ⟨_, rfl⟩
    | false => exact ih (fun y hy => h y (by simp [hy]))

theorem allTrue_sound {α : Type} {check : α → Outcome Bool} {P : α → Prop} {l : List α}
    (h : ∀ x ∈ l, ∀ b, check x = .ok b → (b = true ↔ P x)) {b : Bool} (hb : allTrue check l = .ok b) :
    b = true ↔ ∀ x ∈ l, P x := by
  induction l with
  | nil => simp [allTrue] at hb; simp [hb]
  | cons x xs ih =>
    rw [allTrue] at hb
    cases hx : check x with
    | ok c =>
      have hpx := h x (by simp) c hx
      cases c with
      | false =>
        rw [hx] at hb
        simp only [Outcome.ok.injEq] at hb
        rw [← hb]
        have hn : ¬ P x := fun hp => by have := hpx.2 hp; cases this
        simp [hn]
      | true =>
        rw [hx] at hb
        rw [ih (fun y hy => h y (by simp [hy])) hb]
        simp [hpx.1 rfl]
    | error m => rw [hx] at hb; cases hb
    | ub => rw [hx] at hb; cases hb
    | crash => rw [hx] at hb; cases hb

theorem allTrue_total {α : Type} {check : α → Outcome Bool} {l : List α}
    (h : ∀ x ∈ l, ∃ b, check x = .ok b) : ∃ b, allTrue check l = .ok b := by
  induction l with
  | nil => exact ⟨_, rfl⟩
  | cons x xs ih =>
    rw [allTrue]
    obtain ⟨b, hb⟩ := h x (by simp)
    rw [hb]
    cases b with
    | false => exact ⟨_, rfl⟩
    | true => exact ih (fun y hy => h y (by simp [hy]))

theorem checkString_iff (s : Str) (a : Attribute) (c : Constraint) :
    checkStringConstraint s a c = true ↔ StringHolds c.relation a.value s := by
  unfold checkStringConstraint StringHolds
  cases c.relation <;> simp

theorem checkInt_sound {n : Int} {a : Attribute} {c : Constraint} {b : Bool}
    (h : checkIntConstraint n a c = .ok b) :
    b = true ↔ IntHolds c.relation c.modulus a.value n := by
  unfold checkIntConstraint at h
  unfold IntHolds
  cases hv : simpleAtoi64 a.value with
  | none =>
    rw [hv] at h
    simp only [Outcome.ok.injEq] at h
    subst h
    simp only [Bool.false_eq_true, false_iff, not_exists, not_and]
    intro v hd
    rw [(simpleAtoi64_iff _ _).2 hd] at hv
    cases hv
  | some v =>
    have hden := (simpleAtoi64_iff _ _).1 hv
    have huniq : ∀ w, DenotesInt a.value w → w = v := by
      intro w hw
      rw [(simpleAtoi64_iff _ _).2 hw] at hv
      exact Option.some.inj hv
    rw [hv] at h
    simp only at h
    have hex : ∀ P : Int → Prop, (∃ w, DenotesInt a.value w ∧ P w) ↔ P v := by
      intro P
      constructor
      · rintro ⟨w, hw, hp⟩; rw [← huniq w hw]; exact hp
      · intro hp; exact ⟨v, hden, hp⟩
    rw [hex]
    cases hr : c.relation with
    | unknown => rw [hr] at h; simp at h; subst h; simp
    | equal => rw [hr] at h; simp at h; subst h; simp
    | notEqual => rw [hr] at h; simp only [Outcome.ok.injEq] at h; subst h; simp
    | moduloEqual =>
      rw [hr] at h
      simp only at h
      cases hm : mod64 v c.modulus with
      | none => rw [hm] at h; cases h
      | some r =>
        rw [hm] at h
        unfold mod64 at hm
        split at hm
        · cases hm
        · have := Option.some.inj hm
          simp only [Outcome.ok.injEq] at h
          subst h
          simp [this]
    | moduloNotEqual =>
      rw [hr] at h
      simp only at h
      cases hm : mod64 v c.modulus with
      | none => rw [hm] at h; cases h
      | some r =>
        rw [hm] at h
        unfold mod64 at hm
        split at hm
        · cases hm
        · have := Option.some.inj hm
          simp only [Outcome.ok.injEq] at h
          subst h
          simp [this]

theorem checkAttribute_sound {c : Constraint} {a : Attribute} {b : Bool}
    (h : checkAttribute c a = .ok b) :
    b = true ↔ a.name = c.attributeName ∧
      ((∃ s ∈ c.stringValues, StringHolds c.relation a.value s) ∨
       (∃ n ∈ c.int64Values, IntHolds c.relation c.modulus a.value n)) := by
  unfold checkAttribute at h
  by_cases hn : a.name = c.attributeName
  · rw [if_neg (by simpa using hn)] at h
    split at h
    · rename_i hs
      simp only [Outcome.ok.injEq] at h
      subst h
      rw [List.any_eq_true] at hs
      obtain ⟨s, hs, hc⟩ := hs
      simp only [true_iff]
      exact ⟨hn, Or.inl ⟨s, hs, (checkString_iff s a c).1 hc⟩⟩
    · rename_i hs
      rw [anyTrue_sound (P := fun n => IntHolds c.relation c.modulus a.value n)
        (fun n _ b hb => checkInt_sound hb) h]
      have : ¬ ∃ s ∈ c.stringValues, StringHolds c.relation a.value s := by
        rintro ⟨s, hm, hh⟩
        exact hs (List.any_eq_true.2 ⟨s, hm, (checkString_iff s a c).2 hh⟩)
      simp [hn, this]
  · rw [if_pos hn] at h
    simp only [Outcome.ok.injEq] at h
    subst h
    simp [hn]

theorem checkList_sound {cl : ConstraintList} {attrs : List Attribute} {b : Bool}
    (h : checkConstraintList cl attrs = .ok b) : b = true ↔ SatisfiesAll attrs cl := by
  unfold checkConstraintList at h
  unfold SatisfiesAll
  refine allTrue_sound (P := fun cs => ∃ c ∈ cs, Satisfies attrs c) ?_ h
  intro cs _ b hb
  refine anyTrue_sound (P := fun c => Satisfies attrs c) ?_ hb
  intro c _ b hb
  exact anyTrue_sound (fun a _ b hb => checkAttribute_sound hb) hb

theorem checkList_total {cl : ConstraintList} {attrs : List Attribute}
    (h : ∀ cs ∈ cl, ∀ c ∈ cs, ModulusOk c) : ∃ b, checkConstraintList cl attrs = .ok b := by
  refine allTrue_total fun cs hcs => anyTrue_total fun c hc => anyTrue_total fun a _ => ?_
  have hm := h cs hcs c hc
  unfold checkAttribute
  split
  · exact ⟨_, rfl⟩
  · split
    · exact ⟨_, rfl⟩
    · refine anyTrue_total fun n _ => ?_
      unfold checkIntConstraint
      cases simpleAtoi64 a.value with
      | none => exact ⟨_, rfl⟩
      | some v =>
        simp only
        unfold ModulusOk at hm
        cases hr : c.relation with
        | unknown => exact ⟨_, rfl⟩
        | equal => exact ⟨_, rfl⟩
        | notEqual => exact ⟨_, rfl⟩
        | moduloEqual =>
          have := hm (Or.inl hr)
          simp only [mod64]
          rw [if_neg (by rintro (h | h); exact this.1 h; exact this.2 h.2)]
          exact ⟨_, rfl⟩
        | moduloNotEqual =>
          have := hm (Or.inr hr)
          simp only [mod64]
          rw [if_neg (by rintro (h | h); exact this.1 h; exact this.2 h.2)]
          exact ⟨_, rfl⟩

end Distbench.Placement
