import Verif.Spec.Commands
import Verif.Spec.Placement
import Verif.Props.Timeout
import Verif.Props.Placement
import Verif.Props.Sequencer
import Verif.Lemmas.Payload

/-! Properties of the commands of `distbench`. -/

namespace Distbench.Commands
open Distbench.Spec Sequencer Services Placement

/-! ### reading files -/

theorem varint_suffix {k : Nat} {bytes : List Nat} {v : Nat} {rest : List Nat}
    (h : varint k bytes = some (v, rest)) : ∃ pre, bytes = pre ++ rest ∧ pre ≠ [] := by
  induction k generalizing bytes v with
  | zero => simp [varint] at h
  | succ k ih =>
    cases bytes with
    | nil => simp [varint] at h
    | cons b bs =>
      rw [varint] at h
      split at h
      · simp only [Option.some.injEq, Prod.mk.injEq] at h
        exact ⟨[b], by rw [← h.2]; rfl, by simp⟩
      · cases hv : varint k bs with
        | none => rw [hv] at h; cases h
        | some x =>
          obtain ⟨w, r⟩ := x
          rw [hv] at h
          simp only [Option.some.injEq, Prod.mk.injEq] at h
          obtain ⟨_, h2⟩ := h
          subst h2
          obtain ⟨pre, hp, _⟩ := ih hv
          exact ⟨b :: pre, by rw [hp]; rfl, by simp⟩

theorem varint_small {k b : Nat} {bytes : List Nat} (h : b < 128) :
    varint (k + 1) (b :: bytes) = some (b, bytes) := by
  rw [varint, if_pos h]

theorem varint_wire {k : Nat} {num rest : List Nat} (h : IsVarint num) (hl : num.length ≤ k) :
    varint k (num ++ rest) = some (varintValue num, rest) := by
  induction k generalizing num with
  | zero =>
    have := List.length_eq_zero_iff.1 (Nat.le_zero.1 hl)
    subst this
    exact absurd h (by simp [IsVarint])
  | succ k ih =>
    match num, h with
    | [b], h =>
      have h : b < 128 := h
      rw [List.singleton_append, varint, if_pos h]
      simp only [varintValue, Option.some.injEq, Prod.mk.injEq, and_true]
      omega
    | b :: c :: bs, h =>
      have h' : 128 ≤ b ∧ IsVarint (c :: bs) := h
      rw [List.cons_append, varint, if_neg (by omega),
        ih h'.2 (by simp only [List.length_cons] at hl ⊢; omega)]
      rfl

/-- What is left of a message is its end. -/
theorem scan_suffix {fuel depth : Nat} {group : Option Nat} {bytes : List Nat}
    {fields : List (Nat × List Nat)} {rest : List Nat}
    (h : scan fuel depth group bytes = some (fields, rest)) : ∃ pre, bytes = pre ++ rest := by
  induction fuel generalizing depth group bytes fields rest with
  | zero => simp [scan] at h
  | succ fuel ih =>
    cases bytes with
    | nil =>
      rw [scan] at h
      split at h
      · simp only [Option.some.injEq, Prod.mk.injEq] at h
        exact ⟨[], by rw [← h.2]; rfl⟩
      · cases h
    | cons b bs =>
      rw [scan] at h
      cases hv : varint 5 (b :: bs) with
      | none => rw [hv] at h; cases h
      | some x =>
        obtain ⟨value, r⟩ := x
        rw [hv] at h
        obtain ⟨p1, hp1, _⟩ := varint_suffix hv
        rw [hp1]
        have go : ∀ {x : List Nat}, (∃ q, r = q ++ x) → ∃ pre, p1 ++ r = pre ++ x := by
          rintro x ⟨q, hq⟩
          exact ⟨p1 ++ q, by rw [hq, List.append_assoc]⟩
        apply go
        clear go hp1 hv
        dsimp only at h
        split at h
        · cases group with
          | none => cases h
          | some n =>
            dsimp only at h
            split at h
            · simp only [Option.some.injEq, Prod.mk.injEq] at h
              exact ⟨[], by rw [← h.2]; rfl⟩
            · cases h
        split at h
        · cases h
        split at h
        · cases hw : varint 10 r with
          | none => rw [hw] at h; cases h
          | some x =>
            rw [hw] at h
            obtain ⟨p2, hp2, _⟩ := varint_suffix (v := x.1) (rest := x.2) hw
            obtain ⟨p3, hp3⟩ := ih h
            exact ⟨p2 ++ p3, by rw [hp2, hp3, List.append_assoc]⟩
        split at h
        · split at h
          · cases h
          · obtain ⟨p3, hp3⟩ := ih h
            exact ⟨r.take 8 ++ p3, by rw [List.append_assoc, ← hp3, List.take_append_drop]⟩
        split at h
        · cases hw : varint 5 r with
          | none => rw [hw] at h; cases h
          | some x =>
            obtain ⟨size, r2⟩ := x
            rw [hw] at h
            obtain ⟨p2, hp2, _⟩ := varint_suffix hw
            dsimp only at h
            split at h
            · cases hs : scan fuel depth group (r2.drop size) with
              | none => rw [hs] at h; cases h
              | some y =>
                rw [hs] at h
                obtain ⟨fs, left⟩ := y
                simp only [Option.some.injEq, Prod.mk.injEq] at h
                obtain ⟨_, h2⟩ := h
                subst h2
                obtain ⟨p3, hp3⟩ := ih hs
                refine ⟨p2 ++ r2.take size ++ p3, ?_⟩
                rw [List.append_assoc, List.append_assoc, ← hp3, List.take_append_drop, hp2]
            · cases h
        split at h
        · split at h
          · cases h
          · cases hs : scan fuel (depth - 1) (some (value % 2 ^ 32 / 8)) r with
            | none => rw [hs] at h; cases h
            | some y =>
              obtain ⟨fs, left⟩ := y
              rw [hs] at h
              obtain ⟨p2, hp2⟩ := ih hs
              obtain ⟨p3, hp3⟩ := ih h
              exact ⟨p2 ++ p3, by rw [hp2, hp3, List.append_assoc]⟩
        split at h
        · split at h
          · cases h
          · obtain ⟨p3, hp3⟩ := ih h
            exact ⟨r.take 4 ++ p3, by rw [List.append_assoc, ← hp3, List.take_append_drop]⟩
        · cases h

/-- A group of ASCII bytes ends with its end tag. -/
theorem scan_group {fuel depth number : Nat} {bytes : List Nat} {fields : List (Nat × List Nat)}
    {rest : List Nat} (hascii : ∀ b ∈ bytes, b < 128)
    (h : scan fuel depth (some number) bytes = some (fields, rest)) : 8 * number + 4 ∈ bytes := by
  induction fuel generalizing depth bytes fields rest with
  | zero => simp [scan] at h
  | succ fuel ih =>
    cases bytes with
    | nil => simp [scan] at h
    | cons b bs =>
      have hb : b < 128 := hascii b (by simp)
      have hbs : ∀ x ∈ bs, x < 128 := fun x hx => hascii x (by simp [hx])
      rw [scan, varint_small hb] at h
      dsimp only at h
      have hm : b % 2 ^ 32 = b := by omega
      rw [hm] at h
      have suf : ∀ {x pre : List Nat}, bs = pre ++ x → (8 * number + 4 ∈ x) → 8 * number + 4 ∈ b :: bs := by
        intro x pre hx hin
        rw [hx]; simp [hin]
      have asc : ∀ {x pre : List Nat}, bs = pre ++ x → ∀ y ∈ x, y < 128 := by
        intro x pre hx y hy
        exact hbs y (by rw [hx]; simp [hy])
      split at h
      · split at h
        · rename_i he; rw [he]; simp
        · cases h
      split at h
      · cases h
      split at h
      · cases hw : varint 10 bs with
        | none => rw [hw] at h; cases h
        | some x =>
          rw [hw] at h
          obtain ⟨p2, hp2, _⟩ := varint_suffix (v := x.1) (rest := x.2) hw
          exact suf hp2 (ih (asc hp2) h)
      split at h
      · split at h
        · cases h
        · exact suf (List.take_append_drop 8 bs).symm (ih (asc (List.take_append_drop 8 bs).symm) h)
      split at h
      · cases hw : varint 5 bs with
        | none => rw [hw] at h; cases h
        | some x =>
          obtain ⟨size, r2⟩ := x
          rw [hw] at h
          obtain ⟨p2, hp2, _⟩ := varint_suffix hw
          dsimp only at h
          split at h
          · cases hs : scan fuel depth (some number) (r2.drop size) with
            | none => rw [hs] at h; cases h
            | some y =>
              have e : bs = (p2 ++ r2.take size) ++ r2.drop size := by
                rw [List.append_assoc, List.take_append_drop, hp2]
              exact suf e (ih (asc e) (fields := y.1) (rest := y.2) hs)
          · cases h
      split at h
      · split at h
        · cases h
        · cases hs : scan fuel (depth - 1) (some (b / 8)) bs with
          | none => rw [hs] at h; cases h
          | some y =>
            rw [hs] at h
            obtain ⟨p2, hp2⟩ := scan_suffix (fields := y.1) (rest := y.2) hs
            exact suf hp2 (ih (asc hp2) h)
      split at h
      · split at h
        · cases h
        · exact suf (List.take_append_drop 4 bs).symm (ih (asc (List.take_append_drop 4 bs).symm) h)
      · cases h

/-- Missing from the full property: files that begin otherwise, see `C201_false`.  A file that
begins with the letter t, or with a comment and has no $ in it, is read as the text it is. -/
theorem C201_text_partial {Test Settings : Type} (p : Parsers Test Settings) {bytes : List Nat}
    (h : StartsLikeText bytes) : parseFile p (some bytes) = p.text bytes := by
  have key : scan (bytes.length + 1) 100 none bytes = none := by
    rcases h with ⟨rest, rfl⟩ | ⟨rest, rfl, hr⟩
    · show scan _ 100 none (116 :: rest) = none
      rw [scan, varint_small (by omega)]
      simp
    · show scan (rest.length + 1 + 1) 100 none (35 :: rest) = none
      rw [scan, varint_small (by omega)]
      simp only [show (35 : Nat) % 2 ^ 32 = 35 by decide, show ¬ ((35 : Nat) = 0 ∨ 35 % 8 = 4) by decide,
        if_false, show ¬ (35 : Nat) / 8 = 0 by decide, show ¬ (35 : Nat) % 8 = 0 by decide,
        show ¬ (35 : Nat) % 8 = 1 by decide, show ¬ (35 : Nat) % 8 = 2 by decide,
        show (35 : Nat) % 8 = 3 by decide, if_true, show ¬ (100 : Nat) = 0 by decide,
        show (35 : Nat) / 8 = 4 by decide]
      cases hs : scan (rest.length + 1) (100 - 1) (some 4) rest with
      | none => rfl
      | some y =>
        have := scan_group (fields := y.1) (rest := y.2) (fun b hb => (hr b hb).1) hs
        exact absurd rfl ((hr _ this).2)
  unfold parseFile parseBinary
  simp only [key]

/-- The file `#$"<tab><space>`, newline, `tests{}`. -/
def trap : List Nat := bytesOf "#$\"\t \ntests{}"

/-- A text with one test that is read as a binary file without tests, whatever the parsers of tests
and of the text format are. -/
theorem C201_false : ∃ bytes, SaysTests bytes 1 ∧
    ∀ (Test Settings : Type) (p : Parsers Test Settings) (none_ : Settings),
      p.settings [] = some none_ → parseFile p (some bytes) = some ([], none_) := by
  refine ⟨trap, ?_, ?_⟩
  · have h : SaysTests (bytesOf "#" ++ bytesOf "$\"\t " ++ bytesOf "\n" ++ (bytesOf "tests{}" ++ [])) 1 :=
      .comment (by decide) (.test .done)
    exact h
  · intro Test Settings p none_ hs
    have key : scan (trap.length + 1) 100 none trap = some ([(4, bytesOf " \ntests{}")], []) := by
      decide +kernel
    unfold parseFile parseBinary
    simp only [key]
    have e1 : fieldsOf 1 [(4, bytesOf " \ntests{}")] = [] := by decide
    have e2 : fieldsOf 2 [(4, bytesOf " \ntests{}")] = [] := by decide
    rw [e1, e2, hs]
    rfl

theorem parseEach_map {Test : Type} {parse : List Nat → Option Test} {texts : List (List Nat)} {ts : List Test}
    (h : texts.map parse = ts.map some) : parseEach parse texts = some ts := by
  induction texts generalizing ts with
  | nil =>
    cases ts with
    | nil => rfl
    | cons t ts => cases h
  | cons b texts ih =>
    cases ts with
    | nil => cases h
    | cons t ts =>
      rw [List.map_cons, List.map_cons, List.cons.injEq] at h
      rw [parseEach, h.1, ih h.2]

/-- C202.  A file in binary form is read as the tests and settings in it. -/
theorem C202_binary {Test Settings : Type} (p : Parsers Test Settings)
    {tests settings : List (List Nat)} {bytes : List Nat} (h : BinaryForm tests settings bytes)
    {ts : List Test} (ht : tests.map p.test = ts.map some) {s : Settings}
    (hs : p.settings settings = some s) : parseFile p (some bytes) = some (ts, s) := by
  replace ht := parseEach_map ht
  have key : ∀ fuel, bytes.length < fuel → ∃ fields, scan fuel 100 none bytes = some (fields, []) ∧
      fieldsOf 1 fields = tests ∧ fieldsOf 2 fields = settings := by
    clear ht hs
    induction h with
    | done =>
      intro fuel hf
      obtain ⟨f, rfl⟩ : ∃ f, fuel = f + 1 := ⟨fuel - 1, by omega⟩
      exact ⟨[], by simp [scan], rfl, rfl⟩
    | @test size contents tests settings bytes hsz hle _ ih =>
      intro fuel hf
      obtain ⟨f, rfl⟩ : ∃ f, fuel = f + 1 := ⟨fuel - 1, by omega⟩
      simp only [List.length_cons, List.length_append] at hf
      obtain ⟨fields, h1, h2, h3⟩ := ih f (by omega)
      refine ⟨(1, contents) :: fields, ?_, ?_, ?_⟩
      · rw [scan, varint_small (by omega)]
        simp only [show (10 : Nat) % 2 ^ 32 = 10 by decide, show ¬ ((10 : Nat) = 0 ∨ 10 % 8 = 4) by decide,
          if_false, show ¬ (10 : Nat) / 8 = 0 by decide, show ¬ (10 : Nat) % 8 = 0 by decide,
          show ¬ (10 : Nat) % 8 = 1 by decide, show (10 : Nat) % 8 = 2 by decide, if_true]
        rw [List.append_assoc, varint_wire hsz.1 hsz.2.2, hsz.2.1]
        simp only [List.length_append]
        rw [if_pos (by omega), List.drop_left, h1, List.take_left]
      · unfold fieldsOf at h2 ⊢
        rw [List.filter_cons, if_pos (by simp), List.map_cons, h2]
      · unfold fieldsOf at h3 ⊢
        rw [List.filter_cons, if_neg (by simp), h3]
    | @setting size contents tests settings bytes hsz hle _ ih =>
      intro fuel hf
      obtain ⟨f, rfl⟩ : ∃ f, fuel = f + 1 := ⟨fuel - 1, by omega⟩
      simp only [List.length_cons, List.length_append] at hf
      obtain ⟨fields, h1, h2, h3⟩ := ih f (by omega)
      refine ⟨(2, contents) :: fields, ?_, ?_, ?_⟩
      · rw [scan, varint_small (by omega)]
        simp only [show (18 : Nat) % 2 ^ 32 = 18 by decide, show ¬ ((18 : Nat) = 0 ∨ 18 % 8 = 4) by decide,
          if_false, show ¬ (18 : Nat) / 8 = 0 by decide, show ¬ (18 : Nat) % 8 = 0 by decide,
          show ¬ (18 : Nat) % 8 = 1 by decide, show (18 : Nat) % 8 = 2 by decide, if_true]
        rw [List.append_assoc, varint_wire hsz.1 hsz.2.2, hsz.2.1]
        simp only [List.length_append]
        rw [if_pos (by omega), List.drop_left, h1, List.take_left]
      · unfold fieldsOf at h2 ⊢
        rw [List.filter_cons, if_neg (by simp), h2]
      · unfold fieldsOf at h3 ⊢
        rw [List.filter_cons, if_pos (by simp), List.map_cons, h3]
  obtain ⟨fields, h1, h2, h3⟩ := key _ (Nat.lt_succ_self _)
  unfold parseFile parseBinary
  simp only [h1, h2, h3, ht, hs]

/-- Two tests of one and two bytes, with settings in between. -/
def smallFile : List Nat := [10, 1, 7] ++ [18, 2, 8, 1] ++ [10, 2, 5, 6]

example {Test Settings : Type} (p : Parsers Test Settings) {ts : List Test}
    (ht : [p.test [7], p.test [5, 6]] = ts.map some) {s : Settings} (hs : p.settings [[8, 1]] = some s) :
    parseFile p (some smallFile) = some (ts, s) :=
  C202_binary p
    (.test (size := [1]) ⟨by simp [IsVarint], rfl, by decide⟩ (by decide)
      (.setting (size := [2]) ⟨by simp [IsVarint], rfl, by decide⟩ (by decide)
        (.test (size := [2]) ⟨by simp [IsVarint], rfl, by decide⟩ (by decide) .done))) ht hs

/-- The beginning of a number in the wire format is not a number. -/
theorem varint_cut {k m : Nat} {num : List Nat} (h : IsVarint num) (hm : m < num.length) :
    varint k (num.take m) = none := by
  induction k generalizing num m with
  | zero => rfl
  | succ k ih =>
    cases m with
    | zero => rfl
    | succ m =>
      match num, h with
      | [b], h => simp at hm
      | b :: c :: bs, h =>
        have h' : 128 ≤ b ∧ IsVarint (c :: bs) := h
        rw [List.take_succ_cons, varint, if_neg (by omega),
          ih h'.2 (by simp only [List.length_cons] at hm ⊢; omega)]

/-- A field of a test sequence, number 1 or 2, in front of anything. -/
theorem scan_field {fuel tag : Nat} (ht : tag = 10 ∨ tag = 18) (bytes : List Nat) :
    scan (fuel + 1) 100 none (tag :: bytes) =
      match varint 5 bytes with
      | none => none
      | some (size, rest) =>
        if size ≤ 2 ^ 31 - 17 ∧ size ≤ rest.length then
          match scan fuel 100 none (rest.drop size) with
          | none => none
          | some (fields, left) => some ((tag / 8, rest.take size) :: fields, left)
        else none := by
  rcases ht with rfl | rfl
  · rw [scan, varint_small (by omega)]
    simp only [show (10 : Nat) % 2 ^ 32 = 10 by decide, show ¬ ((10 : Nat) = 0 ∨ 10 % 8 = 4) by decide,
      if_false, show ¬ (10 : Nat) / 8 = 0 by decide, show ¬ (10 : Nat) % 8 = 0 by decide,
      show ¬ (10 : Nat) % 8 = 1 by decide, show (10 : Nat) % 8 = 2 by decide, if_true]
    cases varint 5 bytes <;> rfl
  · rw [scan, varint_small (by omega)]
    simp only [show (18 : Nat) % 2 ^ 32 = 18 by decide, show ¬ ((18 : Nat) = 0 ∨ 18 % 8 = 4) by decide,
      if_false, show ¬ (18 : Nat) / 8 = 0 by decide, show ¬ (18 : Nat) % 8 = 0 by decide,
      show ¬ (18 : Nat) % 8 = 1 by decide, show (18 : Nat) % 8 = 2 by decide, if_true]
    cases varint 5 bytes <;> rfl

/-- A field that is cut short. -/
theorem scan_cut {tag m : Nat} (ht : tag = 10 ∨ tag = 18) {size contents bytes : List Nat}
    (hs : WireNumber size contents.length) (hm : m < size.length + contents.length) (fuel : Nat) :
    scan fuel 100 none (tag :: (size ++ contents ++ bytes).take m) = none := by
  cases fuel with
  | zero => rfl
  | succ fuel =>
    rw [scan_field ht, List.append_assoc]
    by_cases h : m < size.length
    · rw [List.take_append_of_le_length (by omega), varint_cut hs.1 h]
    · have e : (size ++ (contents ++ bytes)).take m =
          size ++ (contents ++ bytes).take (m - size.length) := by
        rw [List.take_append, List.take_of_length_le (by omega)]
      rw [e, varint_wire hs.1 hs.2.2, hs.2.1]
      simp only
      rw [if_neg]
      rintro ⟨-, hx⟩
      rw [List.length_take] at hx
      omega

/-- A field that is not cut, in front of the rest. -/
theorem take_field {m : Nat} {size contents bytes : List Nat}
    (hm : size.length + contents.length ≤ m) :
    (size ++ contents ++ bytes).take m =
      size ++ contents ++ bytes.take (m - (size.length + contents.length)) := by
  rw [List.take_append, List.take_of_length_le (by simpa using hm), List.length_append]

/-- C298.  The binary form of a test sequence, cut at whatever byte, is not read as binary, or it is
the binary form of the first of its tests and settings. -/
theorem C298_cut_partial {Test Settings : Type} (p : Parsers Test Settings)
    {tests settings : List (List Nat)} {bytes : List Nat} (h : BinaryForm tests settings bytes)
    (n : Nat) : parseFile p (some (bytes.take n)) = p.text (bytes.take n) ∨
      ∃ i j, BinaryForm (tests.take i) (settings.take j) (bytes.take n) := by
  have key : ∀ n, (∃ i j, BinaryForm (tests.take i) (settings.take j) (bytes.take n)) ∨
      ∀ fuel, scan fuel 100 none (bytes.take n) = none := by
    induction h with
    | done => intro n; exact .inl ⟨0, 0, by simpa using .done⟩
    | @test size contents tests settings bytes hsz hle _ ih =>
      intro n
      cases n with
      | zero => exact .inl ⟨0, 0, .done⟩
      | succ m =>
        rw [List.take_succ_cons]
        by_cases hm : m < size.length + contents.length
        · exact .inr (scan_cut (.inl rfl) hsz hm)
        · rw [take_field (by omega)]
          rcases ih (m - (size.length + contents.length)) with ⟨i, j, hb⟩ | hn
          · exact .inl ⟨i + 1, j, .test hsz hle hb⟩
          · right
            intro fuel
            cases fuel with
            | zero => rfl
            | succ fuel =>
              rw [scan_field (.inl rfl), List.append_assoc, varint_wire hsz.1 hsz.2.2, hsz.2.1]
              simp only [List.drop_left, hn]
              split <;> rfl
    | @setting size contents tests settings bytes hsz hle _ ih =>
      intro n
      cases n with
      | zero => exact .inl ⟨0, 0, .done⟩
      | succ m =>
        rw [List.take_succ_cons]
        by_cases hm : m < size.length + contents.length
        · exact .inr (scan_cut (.inr rfl) hsz hm)
        · rw [take_field (by omega)]
          rcases ih (m - (size.length + contents.length)) with ⟨i, j, hb⟩ | hn
          · exact .inl ⟨i, j + 1, .setting hsz hle hb⟩
          · right
            intro fuel
            cases fuel with
            | zero => rfl
            | succ fuel =>
              rw [scan_field (.inr rfl), List.append_assoc, varint_wire hsz.1 hsz.2.2, hsz.2.1]
              simp only [List.drop_left, hn]
              split <;> rfl
  rcases key n with hb | hn
  · exact .inr hb
  · left
    unfold parseFile parseBinary
    simp only [hn]

/-- A file that was cut between two tests is read as if it were complete. -/
theorem C298_cut_negation {Test Settings : Type} (p : Parsers Test Settings) {t : Test}
    (ht : p.test [7] = some t) {s : Settings} (hs : p.settings [] = some s) :
    ∃ bytes n, BinaryForm [[7], [7]] [] bytes ∧ n < bytes.length ∧
      parseFile p (some (bytes.take n)) = some ([t], s) := by
  have w : WireNumber [1] 1 := ⟨by simp [IsVarint], rfl, by decide⟩
  refine ⟨[10, 1, 7, 10, 1, 7], 3,
    .test (size := [1]) (contents := [7]) w (by decide)
      (.test (size := [1]) (contents := [7]) w (by decide) .done), by decide, ?_⟩
  exact C202_binary p (tests := [[7]]) (settings := []) (bytes := [10, 1, 7])
    (.test (size := [1]) (contents := [7]) w (by decide) .done) (ts := [t]) (by simp [ht]) hs

/-- Cut in the middle of the last test. -/
example {Test Settings : Type} (p : Parsers Test Settings) :
    parseFile p (some (smallFile.take 10)) = p.text [10, 1, 7, 18, 2, 8, 1, 10, 2, 5] := by
  have : scan 11 100 none [10, 1, 7, 18, 2, 8, 1, 10, 2, 5] = none := by decide +kernel
  show parseFile p (some [10, 1, 7, 18, 2, 8, 1, 10, 2, 5]) = _
  unfold parseFile parseBinary
  simp only [List.length_cons, List.length_nil, Nat.reduceAdd, this]

example : StartsLikeText (bytesOf "# A comment.\ntests { services { name: \"a\" } }\n") :=
  Or.inr ⟨bytesOf " A comment.\ntests { services { name: \"a\" } }\n", rfl, by decide⟩

/-! ### run_tests -/

theorem sameButTimeouts {flag : Int} {tests sent : List (Map Str)} {deadline : Int}
    (h : Timeout.mainRunTests flag tests = .ok (.ok (sent, deadline))) : SameButTimeouts tests sent := by
  have e : sent = if flag ≠ 0 then Timeout.setAllTimeouts tests (showInt flag) else tests := by
    unfold Timeout.mainRunTests at h
    dsimp only at h
    generalize Timeout.getTestSequenceTimeout _ _ = o at h
    cases o with
    | ok v =>
      cases v with
      | error m => simp [Outcome.bind] at h
      | ok v =>
        simp only [Outcome.bind, Outcome.ok.injEq, Except.ok.injEq, Prod.mk.injEq] at h
        exact h.1.symm
    | error m => simp [Outcome.bind] at h
    | ub => simp [Outcome.bind] at h
    | crash => simp [Outcome.bind] at h
  subst e
  split
  · refine ⟨by simp [Timeout.setAllTimeouts], ?_⟩
    intro i t s hi hs name hn
    unfold Timeout.setAllTimeouts at hs
    rw [List.getElem?_map, hi] at hs
    simp only [Option.map_some, Option.some.injEq] at hs
    rw [← hs, Map.find_set, if_neg (fun h => hn h.symm)]
  · refine ⟨rfl, ?_⟩
    intro i t s hi hs name _
    rw [hi] at hs
    simp only [Option.some.injEq] at hs
    rw [hs]

/-- What run_tests writes of its results. -/
def written {Settings : Type} (r : RunTests Settings) (results : List TestResult) : List Nat :=
  if r.binaryOutput then r.asBinary results else r.asText results

/-- Missing from the full property: that all of the results are in the file even if the disk is
full, see `C203_false`.  If run_tests exits with status 0, every test of the input ran and succeeded,
the sequencer reported all of them in order, and the output file has these results, if there is
room for them. -/
theorem C203_status_partial {Settings : Type} (r : RunTests Settings) (call : List (Map Str) → Call)
    (hseq : FromSequencer call r.answer) {output : Option (List Nat)}
    (h : mainRunTests r = .ok { status := 0, output := output }) :
    ∃ tests settings sent results, parseFile r.parsers r.infile = some (tests, settings) ∧
      SameButTimeouts tests sent ∧ ReportsFirst (call sent) tests.length results ∧
      (r.outfile = [] → output = none) ∧
      (r.outfile ≠ [] → ∃ contents, output = some contents ∧ contents <+: written r results ∧
        ((written r results).length ≤ r.disk.room → contents = written r results)) := by
  unfold mainRunTests at h
  cases hp : parseFile r.parsers r.infile with
  | none => rw [hp] at h; simp at h
  | some x =>
    obtain ⟨tests, settings⟩ := x
    rw [hp] at h
    dsimp only at h
    cases ht : Timeout.mainRunTests (wholeSeconds r.maxTestDuration) tests with
    | error m => rw [ht] at h; simp [Outcome.bind] at h
    | ub => rw [ht] at h; simp [Outcome.bind] at h
    | crash => rw [ht] at h; simp [Outcome.bind] at h
    | ok v =>
      rw [ht] at h
      cases v with
      | error m => simp [Outcome.bind] at h
      | ok v =>
        obtain ⟨sent, deadline⟩ := v
        simp only [Outcome.bind] at h
        cases ha : r.answer sent deadline with
        | error m => rw [ha] at h; simp at h
        | ok results =>
          rw [ha] at h
          simp only [Outcome.ok.injEq] at h
          have hsame := sameButTimeouts ht
          obtain ⟨hn, prog, s, i, c, e, h1, h2, h3, h4, h5, h6⟩ := hseq sent deadline results ha
          have hr : ReportsFirst (call sent) tests.length results := by
            have hends := C45_answer h1 h2 h3 h4
            rw [← hsame.1, ← hn]
            cases hends with
            | ok hr _ => rw [← h6]; exact hr
            | tooBig => cases h5
            | failed => cases h5
            | cancelled => cases h5
          refine ⟨tests, settings, sent, results, rfl, hsame, hr, ?_, ?_⟩
          · intro ho
            unfold saveResults at h
            rw [ho] at h
            simp only [List.isEmpty_nil, if_true, Exit.mk.injEq] at h
            exact h.2.symm
          · intro ho
            unfold saveResults at h
            rw [if_neg (by simpa using ho)] at h
            simp only [Exit.mk.injEq] at h
            obtain ⟨hst, hout⟩ := h
            have hc : r.disk.canOpen = true := by
              cases hc : r.disk.canOpen with
              | true => rfl
              | false => simp [saveBinary, saveText, hc] at hst
            have e : output = some ((written r results).take r.disk.room) := by
              rw [← hout]
              unfold written saveBinary saveText
              rw [if_pos hc, if_pos hc]
              split <;> rfl
            exact ⟨_, e, List.take_prefix _ _, fun hl => List.take_of_length_le hl⟩

/-- C203.  And if all goes well, run_tests exits with status 0 and writes the results. -/
theorem C203_success {Settings : Type} (r : RunTests Settings) {tests : List (Map Str)}
    {settings : Settings} {sent : List (Map Str)} {deadline : Int} {results : List TestResult}
    (hp : parseFile r.parsers r.infile = some (tests, settings))
    (ht : Timeout.mainRunTests (wholeSeconds r.maxTestDuration) tests = .ok (.ok (sent, deadline)))
    (ha : r.answer sent deadline = .ok results) (hd : r.disk.canOpen = true)
    (hroom : (written r results).length ≤ r.disk.room) :
    mainRunTests r = .ok
      { status := 0, output := if r.outfile = [] then none else some (written r results) } := by
  unfold mainRunTests
  rw [hp]
  dsimp only
  rw [ht]
  simp only [Outcome.bind, ha]
  unfold saveResults
  by_cases ho : r.outfile = []
  · simp [ho]
  · rw [if_neg (by simpa using ho), if_neg ho]
    unfold written at hroom ⊢
    have hwp : ∀ n, writtenByPrint n ≤ n := by
      intro n
      unfold writtenByPrint
      omega
    cases hb : r.binaryOutput with
    | true =>
      rw [hb] at hroom
      simp only [if_true] at hroom ⊢
      unfold saveBinary
      rw [if_pos hd]
      dsimp only
      rw [List.take_of_length_le hroom, if_pos (by simp only [decide_eq_true_eq]; omega)]
    | false =>
      rw [hb] at hroom
      simp only [Bool.false_eq_true, if_false] at hroom ⊢
      unfold saveText
      rw [if_pos hd]
      dsimp only
      rw [List.take_of_length_le hroom,
        if_pos (by simp only [decide_eq_true_eq]; exact Nat.le_trans (hwp _) hroom)]

/-- But results in text form of up to 8192 bytes are reported as saved whatever the room on the
disk. -/
theorem C203_false {Settings : Type} (r : RunTests Settings) {tests : List (Map Str)}
    {settings : Settings} {sent : List (Map Str)} {deadline : Int} {results : List TestResult}
    (hp : parseFile r.parsers r.infile = some (tests, settings))
    (ht : Timeout.mainRunTests (wholeSeconds r.maxTestDuration) tests = .ok (.ok (sent, deadline)))
    (ha : r.answer sent deadline = .ok results) (hd : r.disk.canOpen = true) (ho : r.outfile ≠ [])
    (hb : r.binaryOutput = false) (hsmall : (r.asText results).length ≤ 8192) :
    mainRunTests r = .ok { status := 0, output := some ((r.asText results).take r.disk.room) } := by
  unfold mainRunTests
  rw [hp]
  dsimp only
  rw [ht]
  simp only [Outcome.bind, ha]
  unfold saveResults
  rw [if_neg (by simpa using ho), hb]
  simp only [Bool.false_eq_true, if_false]
  unfold saveText
  rw [if_pos hd]
  dsimp only
  have h0 : writtenByPrint (r.asText results).length = 0 := by
    unfold writtenByPrint
    omega
  rw [h0, if_pos (by simp)]

/-- A test result. -/
def oneResult : TestResult := { placement := [], logs := [], usages := [], summary := [] }

/-- A call of the sequencer with some tests that all succeed. -/
def goodCall (sent : List (Map Str)) : Call where
  tests := sent.length
  settings := { keepInstanceLog := true, shutdownAfterTests := false, summarize := fun _ => [], byteSize := fun _ => 9 }
  outcome := fun _ => .ok oneResult

/-- A sequencer that answers sequences of one test. -/
def goodAnswer (sent : List (Map Str)) (_ : Int) : Except Str (List TestResult) :=
  if sent.length = 1 then .ok [oneResult] else .error []

theorem goodRun : CallRun [{ goodCall [] with tests := 1 }]
    { calls := [{ place := .returned { error := none, results := [oneResult], shutdown := false },
                  results := [oneResult] }],
      notification := some 0, notified := [0] } := by
  refine .step (.step (.step (.step (.step (.step (.step .init
    (.look (i := 0) rfl rfl)) (.start (i := 0) rfl rfl (by intro k hk; cases hk) rfl))
    (.test (i := 0) rfl rfl rfl (by decide) rfl)) (.passed (i := 0) rfl rfl rfl rfl))
    (.finish (i := 0) rfl rfl rfl (by decide))) (.notify (i := 0) rfl rfl)) (.clear (i := 0) rfl rfl)

theorem goodSequencer : FromSequencer goodCall goodAnswer := by
  intro sent deadline results h
  refine ⟨rfl, ?_⟩
  unfold goodAnswer at h
  split at h
  · rename_i hl
    simp only [Except.ok.injEq] at h
    refine ⟨_, _, 0, _, _, goodRun, rfl, ?_, rfl, rfl, h⟩
    show some { goodCall [] with tests := 1 } = some (goodCall sent)
    unfold goodCall
    rw [hl]
  · cases h

/-- Running a file with one test, with a disk that has room for some number of bytes. -/
def oneTest (room : Nat) : RunTests Unit where
  parsers := { test := fun _ => none, settings := fun _ => some (), text := fun _ => some ([[]], ()) }
  infile := some (bytesOf "tests{}")
  maxTestDuration := 0
  answer := goodAnswer
  outfile := "out".toList
  binaryOutput := false
  disk := { canOpen := true, room := room }
  held := 0
  asText := fun _ => bytesOf "test_results{}"
  asBinary := fun _ => [10, 0]

/-- With room for the results all of them are written. -/
example : mainRunTests (oneTest 100) = .ok { status := 0, output := some (bytesOf "test_results{}") } := by
  decide +kernel

example :=
  C203_status_partial (oneTest 100) goodCall goodSequencer
    (output := some (bytesOf "test_results{}")) (by decide +kernel)

/-- With room for three bytes the status is the same. -/
example : mainRunTests (oneTest 3) = .ok { status := 0, output := some (bytesOf "tes") } := by
  decide +kernel

/-! ### --max_test_duration -/

/-- Missing from the full property: durations below a second, see `C204_false`.  With
`--max_test_duration` of a second or more no test may run longer than that. -/
theorem C204_seconds_partial {d : Int} (hd : 1000000000 ≤ d) (tests : List (Map Str))
    (hne : tests ≠ []) (hfit : d * tests.length < 2 ^ 31 * 1000000000) :
    ∃ sent deadline, Timeout.mainRunTests (wholeSeconds d) tests = .ok (.ok (sent, deadline)) ∧
      SameButTimeouts tests sent ∧ deadline * 1000000000 ≤ d * tests.length ∧
      ∀ sentTest ∈ sent, ∃ n, Timeout.testDeadline sentTest = .ok n ∧
        n * 1000000000 ≤ d ∧ d < (n + 1) * 1000000000 := by
  have hq : wholeSeconds d = d / 1000000000 := Int.tdiv_eq_ediv_of_nonneg (by omega)
  have h1 : (1 : Int) ≤ wholeSeconds d := by rw [hq]; omega
  have h2 : wholeSeconds d * 1000000000 ≤ d := by rw [hq]; omega
  have h3 : wholeSeconds d * tests.length * 1000000000 ≤ d * tests.length := by
    have := Int.mul_le_mul_of_nonneg_right h2 (show (0 : Int) ≤ tests.length by omega)
    rw [Int.mul_right_comm]
    exact this
  obtain ⟨sent, hs, hl, hall⟩ := Timeout.C111_flag_overrides (n := wholeSeconds d) (by omega) tests hne
    (by omega)
  refine ⟨sent, _, hs, sameButTimeouts hs, h3, ?_⟩
  intro sentTest hm
  obtain ⟨i, hi⟩ := List.mem_iff_getElem?.1 hm
  have hi' : i < tests.length := by
    rw [← hl]
    exact (List.getElem?_eq_some_iff.1 hi).1
  exact ⟨wholeSeconds d, (hall i _ sentTest (List.getElem?_eq_getElem hi') hi).1, h2, by rw [hq]; omega⟩

/-- A duration of less than a second is as good as none: a test without a timeout of its own may
run for an hour. -/
theorem C204_false {d : Int} (_hpos : 0 < d) (hd : d < 1000000000) :
    Timeout.mainRunTests (wholeSeconds d) [[]] = .ok (.ok ([[]], 3600)) ∧
    Timeout.testDeadline [] = .ok 3600 := by
  have h : wholeSeconds d = 0 := by
    unfold wholeSeconds
    rw [Int.tdiv_eq_ediv_of_nonneg (by omega)]
    omega
  rw [h]
  exact ⟨rfl, rfl⟩

example : wholeSeconds 2500000000 = 2 := by decide

example :=
  C204_seconds_partial (d := 2500000000) (by decide) [[], []] (by decide) (by decide)

/-! ### test_preview -/

/-- C205.  A preview needs one node, however many services its tests have. -/
theorem C205_one_node (tests : List (List Nat)) (h : tests ≠ []) :
    maxRequiredNodes (tests.map previewNeeds) = 1 := by
  have hr : ∀ counts, requiredNodes (previewNeeds counts) = 1 := by
    intro counts
    unfold requiredNodes previewNeeds
    simp only [List.sum_cons, List.sum_nil, List.length_cons, List.length_nil]
    omega
  have h1 : ∀ ts : List (List Nat), (ts.map previewNeeds).foldl
      (fun m t => if requiredNodes t > m then requiredNodes t else m) 1 = 1 := by
    intro ts
    induction ts with
    | nil => rfl
    | cons t ts ih =>
      rw [List.map_cons, List.foldl_cons, hr, if_neg (by decide), ih]
  cases tests with
  | nil => exact absurd rfl h
  | cons t ts =>
    unfold maxRequiredNodes
    rw [List.map_cons, List.foldl_cons, hr, if_pos (by decide), h1]

theorem preview_wf {instances : List Str} {attributes : List Attribute}
    {constraints : List (Str × ConstraintList)} (hi : instances.Nodup)
    (hs : ∀ s ∈ instances, '*' ∉ s) (hc : (constraints.map (·.1)).Nodup) :
    WellFormed (previewProblem instances attributes constraints) where
  services := hi
  nodes := by simp [previewProblem]
  bundles := by simp [previewProblem]
  constraints := hc
  noStar := hs

/-- Missing from the full property: tests with constraints, see `C205_constraints_fail`.  Without
constraints, a preview places every instance on the one node, and nothing else. -/
theorem C205_placed_partial (glob : Str → Str → Bool) {instances : List Str}
    (attributes : List Attribute) (hi : instances.Nodup) (hs : ∀ s ∈ instances, '*' ∉ s) :
    ∃ m, placeServices glob (previewProblem instances attributes []) = .ok m ∧
      ∀ n s, Hosts m n s ↔ n = "node0".toList ∧ s ∈ instances := by
  have hw := preview_wf (attributes := attributes) (constraints := []) hi hs (by simp)
  obtain ⟨m, hm⟩ := C63_unconstrained_complete_partial glob
    (previewProblem instances attributes []) hw rfl (by simp [previewProblem])
    (by simpa [previewProblem] using hi) (by simp [previewProblem])
    (by simp [previewProblem])
  refine ⟨m, hm, ?_⟩
  intro n s
  constructor
  · intro h
    have := (C16_exactly_one_node glob _ hw m hm (by
      intro s _ n cl _ hc
      rcases hc with ⟨h, _⟩ | ⟨_, pat, h, _⟩ <;> cases h)).1 n s h
    exact ⟨by simpa [previewProblem] using this.1, this.2⟩
  · rintro ⟨rfl, h⟩
    exact C17_bundles_honoured glob _ hw m hm _ _ ⟨instances, by simp [previewProblem], h⟩

/-- A test in which an instance has a constraint cannot be previewed, whatever the constraint is. -/
theorem C205_constraints_fail (glob : Str → Str → Bool) {instances : List Str}
    (attributes : List Attribute) {constraints : List (Str × ConstraintList)} (hi : instances.Nodup)
    (hs : ∀ s ∈ instances, '*' ∉ s) (hc : (constraints.map (·.1)).Nodup)
    {s : Str} (hin : s ∈ instances) {cl : ConstraintList}
    (hcl : ConstraintFor glob (previewProblem instances attributes constraints) s cl) :
    ∃ e, placeServices glob (previewProblem instances attributes constraints) = .error e := by
  have hw := preview_wf (attributes := attributes) hi hs hc
  obtain ⟨st, hst⟩ := placeBundles_complete
    (st := { unplaced := instances, idle := ["node0".toList], placed := [] })
    (bs := [("node0".toList, instances)]) (by simp) (by simp) (by simpa using hi) (by simp)
  have hidle : st.idle = [] := by
    have := placeBundles_ok hst (by simp)
    have h6 := this.2.2.2.2.2.1
    cases hid : st.idle with
    | nil => rfl
    | cons n ns =>
      have := (h6 n).1 (by rw [hid]; simp)
      simp at this
  have hf : ∃ cl, findConstraint (resolveConstraints glob (previewProblem instances attributes constraints)) s = some cl := by
    cases h : findConstraint (resolveConstraints glob (previewProblem instances attributes constraints)) s with
    | some cl => exact ⟨cl, rfl⟩
    | none => exact absurd hcl ((resolve_spec glob _ hw s hin).2 h cl)
  obtain ⟨cl', hf⟩ := hf
  have key : ∀ (l : List Str) (st : State), s ∈ l → st.idle = [] →
      ∃ e, placeConstrained [("node0".toList, attributes)]
        (resolveConstraints glob (previewProblem instances attributes constraints)) l st = .error e := by
    intro l
    induction l with
    | nil => intro st h; cases h
    | cons x l ih =>
      intro st hm hid
      rw [placeConstrained]
      cases hx : findConstraint (resolveConstraints glob (previewProblem instances attributes constraints)) x with
      | none =>
        rcases List.mem_cons.1 hm with rfl | hm
        · rw [hx] at hf; cases hf
        · exact ih st hm hid
      | some c =>
        rw [hid]
        exact ⟨_, rfl⟩
  obtain ⟨e, he⟩ := key instances st hin hidle
  refine ⟨e, ?_⟩
  unfold placeServices constraintSolver
  have hst' : placeBundles (previewProblem instances attributes constraints).bundles
      { unplaced := (previewProblem instances attributes constraints).services,
        idle := (previewProblem instances attributes constraints).nodes.map (·.1), placed := [] } = .ok st := hst
  rw [hst']
  dsimp only
  have he' : placeConstrained (previewProblem instances attributes constraints).nodes
      (resolveConstraints glob (previewProblem instances attributes constraints))
      (previewProblem instances attributes constraints).services st = .error e := he
  rw [he']

example := C205_placed_partial (fun _ _ => false) (instances := ["a/0".toList, "a/1".toList, "b/0".toList]) []
  (by decide) (by decide)

example : ∃ e, placeServices (fun _ _ => false)
    (previewProblem ["a/0".toList, "b/0".toList] [] [("b/0".toList, [])]) = .error e :=
  C205_constraints_fail _ [] (by decide) (by decide) (by decide) (s := "b/0".toList) (by decide)
    (cl := []) (Or.inl ⟨by decide, by decide⟩)

/-! ### starting the servers -/

/-- Missing from the full property: the test sequencer, see `C206_false`.  A node manager never
aborts while it is started; it serves if it knows a test sequencer, could listen and was registered,
and otherwise exits with status 1. -/
theorem C206_node_manager_partial (n : NodeStart) :
    (n.testSequencer ≠ [] ∧ n.bound = true ∧ n.registered = true → startNodeManager n = .ok .serves) ∧
    (n.testSequencer = [] ∨ n.bound = false ∨ n.registered = false →
      startNodeManager n = .ok (.exits 1)) := by
  have hc : (!isWildcard (Netutils.getBindAddressFromPort n.ipv4 n.host n.device n.port) &&
      (Netutils.getBestAddress n.host n.device n.ipv4).isNone) = false := by
    cases hb : Netutils.getBestAddress n.host n.device n.ipv4 with
    | some a => simp
    | none =>
      have : isWildcard (Netutils.getBindAddressFromPort n.ipv4 n.host n.device n.port) = true := by
        unfold Netutils.getBindAddressFromPort
        rw [hb]
        cases n.device <;> dsimp only <;> split <;> simp [isWildcard, List.isPrefixOf]
      simp [this]
  unfold startNodeManager
  rw [hc]
  constructor
  · rintro ⟨h1, h2, h3⟩
    rw [if_neg (by simpa using h1)]
    simp [h2, h3]
  · intro h
    by_cases h1 : n.testSequencer = []
    · rw [if_pos (by simp [h1])]
    · rw [if_neg (by simpa using h1)]
      rcases h with h | h | h
      · exact absurd h h1
      · simp [h]
      · cases n.bound <;> simp [h]

theorem life_listening {bound : Bool} {s : SequencerProcess} (h : SequencerLife bound s) :
    s.listening = bound := by
  induction h with
  | init => rfl
  | step _ hs ih => cases hs; exact ih

/-- A test sequencer that could not listen on its port never ends. -/
theorem C206_false {s : SequencerProcess} (h : SequencerLife false s) : s.exitStatus = none := by
  have key : s.shutdownRequested = false := by
    induction h with
    | init => rfl
    | step hl hs ih =>
      cases hs with
      | request b hb => rw [life_listening hl] at hb; cases hb
  unfold SequencerProcess.exitStatus
  simp [key]

example : SequencerLife true { listening := true, shutdownRequested := true } :=
  .step (.step .init (.request false rfl)) (.request true rfl)

example : startNodeManager
    { testSequencer := "host:10000".toList, host := [], device := "eth0".toList, ipv4 := false
      bound := false, port := 0, registered := true } = .ok (.exits 1) :=
  (C206_node_manager_partial _).2 (Or.inr (Or.inl rfl))

/-! ### standard output -/

/-- Missing from the full property: summaries that are still in the buffer when the results are
written, see `C207_false`.  If they have left it, the file has the results. -/
theorem C207_flushed_partial (summaries results : List Nat) {flushed : Nat}
    (h : summaries.length ≤ flushed) : standardOutput summaries results flushed = results := by
  unfold standardOutput
  rw [List.drop_of_length_le h]
  unfold writeAt
  simp only [if_true, List.take_zero, List.drop_nil, List.length_nil, Nat.sub_self, List.replicate_zero,
    List.nil_append, List.append_nil]
  split
  · rename_i h; exact h.symm
  · rfl

/-- Summaries that are still in the buffer overwrite the beginning of the results. -/
theorem C207_false {summaries results : List Nat} (hne : summaries ≠ [])
    (hl : summaries.length ≤ results.length) (hp : ¬ summaries <+: results) :
    ¬ Contains (standardOutput summaries results 0) results := by
  have hr : results ≠ [] := by
    intro h
    rw [h] at hl
    exact hne (List.length_eq_zero_iff.1 (Nat.le_zero.1 hl))
  have e : standardOutput summaries results 0 = summaries ++ results.drop summaries.length := by
    unfold standardOutput writeAt
    simp [hne, hr]
  rw [e]
  rintro ⟨before, after, h⟩
  have hlen := congrArg List.length h
  simp only [List.length_append, List.length_drop] at hlen
  have hb : before = [] := List.length_eq_zero_iff.1 (by omega)
  have ha : after = [] := List.length_eq_zero_iff.1 (by omega)
  subst hb ha
  rw [List.nil_append, List.append_nil] at h
  exact hp ⟨_, h⟩

example : ¬ Contains (standardOutput (bytesOf "Test summary:\n") (bytesOf "test_results {\n}\n") 0)
    (bytesOf "test_results {\n}\n") :=
  C207_false (by decide) (by decide) (by decide)

theorem writeAt_get {file bytes : List Nat} {offset : Nat} (h : bytes ≠ []) (n : Nat) :
    (writeAt file offset bytes)[n]? = if n < offset then some (file[n]?.getD 0)
      else if n < offset + bytes.length then bytes[n - offset]? else file[n]? := by
  have hl : 0 < bytes.length := List.length_pos_iff.2 h
  unfold writeAt
  rw [if_neg h]
  simp only [List.getElem?_append, List.getElem?_take, List.getElem?_replicate, List.getElem?_drop,
    List.length_append, List.length_take, List.length_replicate]
  grind

/-- What the file holds, byte by byte, if part of the summaries left the buffer and the rest did not: the
results, with zeros after them if they are short; the rest of the summaries, in its place among them; and
the results again. -/
theorem C207_bytes {summaries results : List Nat} {flushed : Nat} (h : flushed < summaries.length)
    (hr : results ≠ []) (n : Nat) : (standardOutput summaries results flushed)[n]? =
      if n < flushed then some (results[n]?.getD 0)
      else if n < summaries.length then summaries[n]?
      else results[n]? := by
  have hd : summaries.drop flushed ≠ [] := by
    intro he
    have := congrArg List.length he
    simp at this
    omega
  have hres : ∀ m : Nat, (writeAt [] 0 results)[m]? = results[m]? := by
    intro m
    rw [writeAt_get hr]
    split
    · omega
    · split
      · simp
      · rw [List.getElem?_eq_none (l := results) (by omega)]; rfl
  unfold standardOutput
  dsimp only
  rw [List.take_zero, writeAt_get hd, hres]
  simp only [List.length_take, List.length_drop, List.getElem?_drop, Nat.min_eq_left (Nat.le_of_lt h)]
  split
  · rfl
  · rw [show flushed + (summaries.length - flushed) = summaries.length by omega,
      show flushed + (n - flushed) = n by omega]

example : standardOutput (bytesOf "Summary\n") (bytesOf "r") 3 = [114, 0, 0, 109, 97, 114, 121, 10] := by decide

example : (standardOutput (bytesOf "Summary\n") (bytesOf "r") 3)[1]? = some 0 :=
  C207_bytes (by decide) (by decide) 1

/-! ### statuses -/

/-- C208.  A status of gRPC with one of its codes keeps code and message through Abseil; OK stays
OK. -/
theorem C208_roundtrip (s : Stat) (h : s.code ≤ 16) :
    (s.code ≠ 0 → toGrpc (toAbsl s) = s ∧ toAbsl (toGrpc s) = s) ∧
    (s.code = 0 → (toGrpc (toAbsl s)).code = 0 ∧ (toAbsl (toGrpc s)).code = 0) := by
  constructor
  · intro h0
    unfold toGrpc toAbsl codeOf
    simp [h0, h]
  · intro h0
    unfold toGrpc toAbsl
    simp [h0]

/-- C208.  An error never becomes OK, and OK never an error, whatever the code; the message of an
error is kept. -/
theorem C208_errors (s : Stat) :
    ((toAbsl s).code = 0 ↔ s.code = 0) ∧ ((toGrpc s).code = 0 ↔ s.code = 0) ∧
    (s.code ≠ 0 → (toAbsl s).message = s.message ∧ (toGrpc s).message = s.message) := by
  unfold toAbsl toGrpc codeOf
  by_cases h0 : s.code = 0
  · simp [h0]
  · simp only [h0, if_false, iff_false, not_false_eq_true, true_and]
    refine ⟨?_, fun _ => trivial⟩
    split
    · exact h0
    · decide

example : toGrpc (toAbsl ⟨14, "gone".toList⟩) = ⟨14, "gone".toList⟩ := by decide

end Distbench.Commands
