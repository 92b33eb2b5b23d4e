import Verif.Spec.Timeout
import Verif.Lemmas.Constraints
import Verif.Lemmas.Registry

/-! Properties of the timeouts of test sequences. -/

namespace Distbench.Timeout
open Placement Services Sequencer Spec

theorem attribute_given {test : Map Str} {v d : Int} (h : TimeoutGiven test v) :
    namedAttributeInt64 test "test_timeout".toList d = .ok v := by
  obtain ⟨text, h1, h2⟩ := h
  unfold namedAttributeInt64
  rw [h1]
  simp only
  rw [(simpleAtoi64_iff _ _).2 h2]

theorem attribute_absent {test : Map Str} {d : Int} (h : TimeoutAbsent test) :
    namedAttributeInt64 test "test_timeout".toList d = .ok d := by
  unfold namedAttributeInt64
  rw [h]

theorem attribute_unreadable {test : Map Str} {d : Int} (h : TimeoutUnreadable test) :
    ∃ e, namedAttributeInt64 test "test_timeout".toList d = .error e := by
  obtain ⟨text, h1, h2⟩ := h
  unfold namedAttributeInt64
  rw [h1]
  simp only
  cases hv : simpleAtoi64 text with
  | none => exact ⟨_, rfl⟩
  | some v => exact absurd ⟨v, (simpleAtoi64_iff _ _).1 hv⟩ h2

theorem allGiven_sum {tests : List (Map Str)} {vs : List Int} (h : AllGiven tests vs) :
    0 ≤ vs.sum ∧ (tests ≠ [] → 0 < vs.sum) := by
  induction h with
  | nil => simp
  | cons _ hv _ ih => simp only [List.sum_cons]; exact ⟨by omega, fun _ => by omega⟩

/-- The loop over tests that all have a positive timeout. -/
theorem timeoutLoop_given {d : Int} {pre : List (Map Str)} {vs : List Int} (h : AllGiven pre vs)
    (rest : List (Map Str)) :
    ∀ acc : Int, 0 ≤ acc → (InI64 (acc + vs.sum) →
      timeoutLoop d (pre ++ rest) acc = timeoutLoop d rest (acc + vs.sum)) ∧
      (InI64 acc → ¬ InI64 (acc + vs.sum) → timeoutLoop d (pre ++ rest) acc = .ub) := by
  induction h with
  | nil =>
    intro acc h0
    simp only [List.sum_nil, Int.add_zero, List.nil_append]
    exact ⟨fun _ => trivial, fun h1 h2 => absurd h1 h2⟩
  | @cons test tests v vs hv hpos hall ih =>
    intro acc h0
    obtain ⟨i1, i2⟩ := ih (acc + v) (by omega)
    have hs := (allGiven_sum hall).1
    have hne : ¬ v = int64Min := by unfold int64Min; omega
    rw [List.cons_append, timeoutLoop, attribute_given hv]
    simp only [hne, if_false, if_neg (show ¬ v ≤ 0 by omega), List.sum_cons, ← Int.add_assoc]
    constructor
    · intro hfit
      rw [if_pos (by unfold InI64 at *; omega)]
      exact i1 hfit
    · intro hacc hover
      split
      · exact i2 (by assumption) hover
      · rfl

/-! ### C57 -/

/-- C57.  If all tests have a positive timeout, the timeout of the sequence is their sum. -/
theorem C57_sum {tests : List (Map Str)} {vs : List Int} (h : AllGiven tests vs) (hne : tests ≠ [])
    (hfit : vs.sum < 2 ^ 63) (d : Int) : getTestSequenceTimeout tests d = .ok (.ok vs.sum) := by
  obtain ⟨h0, h1⟩ := allGiven_sum h
  have := (timeoutLoop_given (d := d) h [] 0 (by omega)).1 (by unfold InI64; omega)
  rw [List.append_nil] at this
  unfold getTestSequenceTimeout
  rw [this, timeoutLoop]
  have := h1 hne
  rw [if_neg (by omega), Int.zero_add]

/-- C57.  If some test has no timeout and all before it have a positive one, or if there are no tests,
the timeout of the sequence is the default. -/
theorem C57_default {pre rest : List (Map Str)} {vs : List Int} {test : Map Str} (h : AllGiven pre vs)
    (hfit : vs.sum < 2 ^ 63) (hno : TimeoutAbsent test) (d : Int) :
    getTestSequenceTimeout (pre ++ test :: rest) d = .ok (.ok d) ∧
    getTestSequenceTimeout [] d = .ok (.ok d) := by
  obtain ⟨h0, h1⟩ := allGiven_sum h
  have := (timeoutLoop_given (d := d) h (test :: rest) 0 (by omega)).1 (by unfold InI64; omega)
  unfold getTestSequenceTimeout
  refine ⟨?_, rfl⟩
  rw [this, timeoutLoop, attribute_absent hno]
  rfl

/-- C57.  If some test has a timeout that is not a number, or not positive, and all before it have a
positive one, the sequence is refused.  (The smallest 64-bit integer is the subject of C107.) -/
theorem C57_error {pre rest : List (Map Str)} {vs : List Int} {test : Map Str} (h : AllGiven pre vs)
    (hfit : vs.sum < 2 ^ 63)
    (hbad : TimeoutUnreadable test ∨ ∃ v, TimeoutGiven test v ∧ v ≤ 0 ∧ v ≠ -2 ^ 63) (d : Int) :
    ∃ e, getTestSequenceTimeout (pre ++ test :: rest) d = .ok (.error e) := by
  obtain ⟨h0, h1⟩ := allGiven_sum h
  have := (timeoutLoop_given (d := d) h (test :: rest) 0 (by omega)).1 (by unfold InI64; omega)
  unfold getTestSequenceTimeout
  rw [this, timeoutLoop]
  rcases hbad with hbad | ⟨v, hv, hle, hne⟩
  · obtain ⟨e, he⟩ := attribute_unreadable (d := int64Min) hbad
    rw [he]
    exact ⟨e, rfl⟩
  · rw [attribute_given hv]
    simp only
    rw [if_neg (by unfold int64Min; exact hne), if_pos hle]
    exact ⟨_, rfl⟩

/-- A test with a timeout attribute. -/
def withTimeout (text : String) : Map Str := [("test_timeout".toList, text.toList)]

theorem sample_given : AllGiven [withTimeout "30", withTimeout " 12 "] [30, 12] := by
  refine .cons ⟨_, rfl, (simpleAtoi64_iff _ _).1 (by decide +kernel)⟩ (by decide)
    (.cons ⟨_, rfl, (simpleAtoi64_iff _ _).1 (by decide +kernel)⟩ (by decide) .nil)

example : getTestSequenceTimeout [withTimeout "30", withTimeout " 12 "] 3600 = .ok (.ok 42) :=
  C57_sum sample_given (by simp) (by decide) 3600
example : getTestSequenceTimeout ([withTimeout "30", withTimeout " 12 "] ++ [] :: [withTimeout "x"]) 3600 =
    .ok (.ok 3600) :=
  (C57_default sample_given (by decide) (show TimeoutAbsent [] from rfl) 3600).1
example : ∃ e, getTestSequenceTimeout ([withTimeout "30", withTimeout " 12 "] ++ withTimeout "0" :: []) 3600 =
    .ok (.error e) :=
  C57_error sample_given (by decide) (Or.inr ⟨0, ⟨_, rfl, (simpleAtoi64_iff _ _).1 (by decide +kernel)⟩,
    by decide, by decide⟩) 3600
example : ∃ e, getTestSequenceTimeout ([withTimeout "30", withTimeout " 12 "] ++ withTimeout "1h" :: []) 3600 =
    .ok (.error e) := by
  refine C57_error sample_given (by decide) (Or.inl ⟨_, rfl, ?_⟩) 3600
  rintro ⟨v, hv⟩
  have := (simpleAtoi64_iff _ _).2 hv
  have h2 : simpleAtoi64 "1h".toList = none := by decide +kernel
  rw [h2] at this
  cases this

/-! ### C107: no negative timeout is accepted -/

/-- Missing from the full property: the smallest 64-bit integer, see `C107_smallest_accepted`. -/
theorem C107_negative_refused_partial {test : Map Str} {v : Int} (hv : TimeoutGiven test v) (hneg : v < 0)
    (hne : v ≠ -2 ^ 63) (rest : List (Map Str)) (d : Int) :
    ∃ e, getTestSequenceTimeout (test :: rest) d = .ok (.error e) :=
  C57_error (pre := []) .nil (by decide) (Or.inr ⟨v, hv, by omega, hne⟩) d

/-- A timeout of -9223372036854775808 is taken for no timeout, and the tests after it are not looked
at. -/
theorem C107_smallest_accepted (rest : List (Map Str)) (d : Int) :
    TimeoutGiven (withTimeout "-9223372036854775808") (-2 ^ 63) ∧
    getTestSequenceTimeout (withTimeout "-9223372036854775808" :: rest) d = .ok (.ok d) := by
  have h : TimeoutGiven (withTimeout "-9223372036854775808") (-2 ^ 63) :=
    ⟨_, rfl, (simpleAtoi64_iff _ _).1 (by decide +kernel)⟩
  refine ⟨h, ?_⟩
  unfold getTestSequenceTimeout
  rw [timeoutLoop, attribute_given h]
  rfl

example : ∃ e, getTestSequenceTimeout [withTimeout "-5"] 3600 = .ok (.error e) :=
  C107_negative_refused_partial (v := -5) ⟨_, rfl, (simpleAtoi64_iff _ _).1 (by decide +kernel)⟩ (by decide) (by decide) [] _

/-! ### C108: the sum of the timeouts is always computed -/

/-- Missing from the full property: sums of 2^63 and more, see `C108_overflow`. -/
theorem C108_defined_partial (tests : List (Map Str)) (d : Int)
    (hfit : ∀ pre rest vs, tests = pre ++ rest → AllGiven pre vs → vs.sum < 2 ^ 63) :
    ∃ r, getTestSequenceTimeout tests d = .ok r := by
  unfold getTestSequenceTimeout
  have gen : ∀ (rest pre : List (Map Str)) (vs : List Int), tests = pre ++ rest → AllGiven pre vs →
      ∃ r, timeoutLoop d rest vs.sum = .ok r := by
    intro rest
    induction rest with
    | nil => intro pre vs _ _; exact ⟨_, rfl⟩
    | cons test rest ih =>
      intro pre vs heq hall
      rw [timeoutLoop]
      split
      · exact ⟨_, rfl⟩
      · rename_i v hv
        split
        · exact ⟨_, rfl⟩
        · split
          · exact ⟨_, rfl⟩
          · rename_i hne hpos
            have hgiven : TimeoutGiven test v := by
              unfold namedAttributeInt64 at hv
              split at hv
              · cases hv; exact absurd rfl hne
              · rename_i text htext
                split at hv
                · rename_i u hu
                  cases hv
                  exact ⟨text, htext, (simpleAtoi64_iff _ _).1 hu⟩
                · cases hv
            have happ : AllGiven (pre ++ [test]) (vs ++ [v]) := by
              clear heq
              induction hall with
              | nil => exact .cons hgiven (by omega) .nil
              | cons h1 h2 _ ih => exact .cons h1 h2 ih
            have hsum := hfit (pre ++ [test]) rest (vs ++ [v]) (by rw [heq]; simp) happ
            have h0 := (allGiven_sum hall).1
            have heqs : (vs ++ [v]).sum = vs.sum + v := by simp
            rw [heqs] at hsum
            rw [if_pos (by unfold InI64; omega), ← heqs]
            exact ih (pre ++ [test]) (vs ++ [v]) (by rw [heq]; simp) happ
  exact gen tests [] [] rfl .nil

/-- Two tests with the largest timeout make the sum overflow. -/
theorem C108_overflow (d : Int) (rest : List (Map Str)) :
    getTestSequenceTimeout (withTimeout "9223372036854775807" :: withTimeout "1" :: rest) d = .ub := by
  have h1 : TimeoutGiven (withTimeout "9223372036854775807") (2 ^ 63 - 1) :=
    ⟨_, rfl, (simpleAtoi64_iff _ _).1 (by decide +kernel)⟩
  have h2 : TimeoutGiven (withTimeout "1") 1 := ⟨_, rfl, (simpleAtoi64_iff _ _).1 (by decide +kernel)⟩
  exact (timeoutLoop_given (d := d) (.cons h1 (by decide) (.cons h2 (by decide) .nil)) rest 0 (by omega)).2
    (by decide) (by decide)

/-! ### C109: the client waits as long as the tests may take -/

theorem toInt32_fits {n : Int} (h0 : -2 ^ 31 ≤ n) (h1 : n < 2 ^ 31) : toInt32 n = n := by
  unfold toInt32; omega

/-- Missing from the full property ("for every sequence"): sequences in which some test has no
timeout, see `C109_too_short`.  If all tests have a positive timeout and the sum is less than 2^31
seconds, the tests are sent as they are, each may run for its timeout, and the client waits for
exactly the sum. -/
theorem C109_client_waits_partial {tests : List (Map Str)} {vs : List Int} (h : AllGiven tests vs)
    (hne : tests ≠ []) (hfit : vs.sum < 2 ^ 31) :
    mainRunTests 0 tests = .ok (.ok (tests, vs.sum)) ∧
    ∀ (i : Nat) test v, tests[i]? = some test → vs[i]? = some v → testDeadline test = .ok v := by
  constructor
  · unfold mainRunTests
    simp only [ne_eq, not_true_eq_false, if_false]
    rw [C57_sum h hne (by omega)]
    have h0 := (allGiven_sum h).1
    simp only [Outcome.bind]
    rw [toInt32_fits (by omega) hfit]
  · have gen : ∀ (tests : List (Map Str)) (vs : List Int), AllGiven tests vs → vs.sum < 2 ^ 31 →
        ∀ (i : Nat) test v, tests[i]? = some test → vs[i]? = some v → testDeadline test = .ok v := by
      intro tests vs hall
      induction hall with
      | nil => intro _ i test v hi; simp at hi
      | @cons test tests v vs hv hpos hall ih =>
        intro hfit i test' v' hi hvi
        simp only [List.sum_cons] at hfit
        have h0 := (allGiven_sum hall).1
        cases i with
        | zero =>
          simp at hi hvi
          subst hi hvi
          unfold testDeadline
          rw [attribute_given hv]
          simp only [Except.map]
          rw [toInt32_fits (by omega) (by omega)]
        | succ i => exact ih (by omega) i test' v' (by simpa using hi) (by simpa using hvi)
    exact gen tests vs h hfit

example : mainRunTests 0 [withTimeout "30", withTimeout " 12 "] =
    .ok (.ok ([withTimeout "30", withTimeout " 12 "], 42)) :=
  (C109_client_waits_partial sample_given (by simp) (by decide)).1

/-- A sequence of a test that may take two hours and one without a timeout: the client gives up after
one hour. -/
theorem C109_too_short : mainRunTests 0 [withTimeout "7200", []] =
      .ok (.ok ([withTimeout "7200", []], 3600)) ∧
    testDeadline (withTimeout "7200") = .ok 7200 ∧ testDeadline [] = .ok 3600 := by
  have h1 : TimeoutGiven (withTimeout "7200") 7200 := ⟨_, rfl, (simpleAtoi64_iff _ _).1 (by decide +kernel)⟩
  refine ⟨?_, ?_, rfl⟩
  · unfold mainRunTests
    simp only [ne_eq, not_true_eq_false, if_false]
    have := (C57_default (pre := [withTimeout "7200"]) (rest := []) (test := [])
      (.cons h1 (by decide) .nil) (by decide) rfl (60 * 60)).1
    rw [List.singleton_append] at this
    rw [this]
    rfl
  · unfold testDeadline
    rw [attribute_given h1]
    rfl

/-! ### C110: long timeouts are kept -/

/-- Missing from the full property ("for every timeout"): timeouts of 2^31 seconds or more, see
`C110_long_timeout_lost`. -/
theorem C110_deadline_partial {test : Map Str} {v : Int} (hv : TimeoutGiven test v) (h0 : -2 ^ 31 ≤ v)
    (h : v < 2 ^ 31) : testDeadline test = .ok v := by
  unfold testDeadline
  rw [attribute_given hv]
  simp only [Except.map]
  rw [toInt32_fits h0 h]

example : testDeadline (withTimeout "86400") = .ok 86400 :=
  C110_deadline_partial ⟨_, rfl, (simpleAtoi64_iff _ _).1 (by decide +kernel)⟩ (by decide) (by decide)

/-- A timeout of 2^31 seconds is accepted by the client but becomes a deadline in the past, both in
the client and in the sequencer. -/
theorem C110_long_timeout_lost :
    mainRunTests 0 [withTimeout "2147483648"] = .ok (.ok ([withTimeout "2147483648"], -2147483648)) ∧
    testDeadline (withTimeout "2147483648") = .ok (-2147483648) := by
  have h1 : TimeoutGiven (withTimeout "2147483648") 2147483648 :=
    ⟨_, rfl, (simpleAtoi64_iff _ _).1 (by decide +kernel)⟩
  constructor
  · unfold mainRunTests
    simp only [ne_eq, not_true_eq_false, if_false]
    rw [C57_sum (.cons h1 (by decide) .nil) (by simp) (by decide)]
    rfl
  · unfold testDeadline
    rw [attribute_given h1]
    rfl

/-! ### C111: the flag overrides the timeouts -/

theorem denotes_showInt {n : Int} (h0 : 0 < n) (h : InI64 n) : DenotesInt (showInt n) n := by
  rw [showInt_nonneg (by omega)]
  refine ⟨[], [], digits n.toNat, [], by simp, by simp, by simp, Or.inl rfl, digits_ne_nil _,
    digits_isDigit _, ?_, h⟩
  rw [if_neg (by simp), digitsValue_digits]
  omega

/-- C111.  With `--max_test_duration` of `n` whole seconds, every test that is sent may run for `n`
seconds, its other attributes are untouched, and the client waits `n` seconds for each test. -/
theorem C111_flag_overrides {n : Int} (h0 : 0 < n) (tests : List (Map Str)) (hne : tests ≠ [])
    (hfit : n * tests.length < 2 ^ 31) :
    ∃ sent, mainRunTests n tests = .ok (.ok (sent, n * tests.length)) ∧ sent.length = tests.length ∧
      ∀ (i : Nat) test sentTest, tests[i]? = some test → sent[i]? = some sentTest →
        testDeadline sentTest = .ok n ∧
        ∀ name, name ≠ "test_timeout".toList → sentTest.find name = test.find name := by
  have hlen : (1 : Int) ≤ tests.length := by
    cases tests with
    | nil => exact absurd rfl hne
    | cons t ts => simp only [List.length_cons]; omega
  have hn : n < 2 ^ 31 := by
    have := Int.mul_le_mul_of_nonneg_left hlen (show 0 ≤ n by omega)
    omega
  have hgiven : ∀ test : Map Str, TimeoutGiven (test.set "test_timeout".toList (showInt n)) n := by
    intro test
    exact ⟨showInt n, by rw [Map.find_set, if_pos rfl],
      denotes_showInt h0 (by unfold InI64; omega)⟩
  have hall : ∀ ts : List (Map Str), AllGiven (setAllTimeouts ts (showInt n)) (List.replicate ts.length n) := by
    intro ts
    induction ts with
    | nil => exact .nil
    | cons t ts ih => exact .cons (hgiven t) h0 ih
  have hsum : (List.replicate tests.length n).sum = n * tests.length := by
    generalize tests.length = k
    induction k with
    | zero => simp
    | succ k ih =>
      rw [List.replicate_succ, List.sum_cons, ih, Int.natCast_add, Int.mul_add]
      omega
  have hne' : setAllTimeouts tests (showInt n) ≠ [] := by
    unfold setAllTimeouts
    simpa using hne
  refine ⟨setAllTimeouts tests (showInt n), ?_, by simp [setAllTimeouts], ?_⟩
  · unfold mainRunTests
    simp only [ne_eq, show ¬ n = 0 by omega, not_false_eq_true, if_true]
    rw [C57_sum (hall tests) hne' (by rw [hsum]; omega), hsum]
    simp only [Outcome.bind]
    rw [toInt32_fits (by have := Int.mul_nonneg (show 0 ≤ n by omega) (show (0:Int) ≤ tests.length by omega); omega) hfit]
  · intro i test sentTest hi hsi
    unfold setAllTimeouts at hsi
    rw [List.getElem?_map, hi] at hsi
    cases hsi
    refine ⟨C110_deadline_partial (hgiven test) (by omega) hn, ?_⟩
    intro name hname
    rw [Map.find_set, if_neg (Ne.symm hname)]

example : ∃ sent, mainRunTests 60 [withTimeout "30", []] = .ok (.ok (sent, 120)) := by
  obtain ⟨sent, h, _⟩ := C111_flag_overrides (n := 60) (by decide) [withTimeout "30", []] (by simp) (by decide)
  exact ⟨sent, h⟩

end Distbench.Timeout
