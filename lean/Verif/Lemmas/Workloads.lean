import Verif.Spec.Workloads
import Verif.Lemmas.BuilderLoad
import Verif.Props.Builder

/-! Lemmas about the options of the scripts in workloads/. -/

namespace Distbench.Workloads
open Services Tables Builder Spec

/-- Letters with an argument. -/
theorem hasArgument_facts (s : Script) : ∀ c ∈ (workloadOptions (fun _ => none) s).map (·.1),
    lookup (letters s) c = some true ∧ c ≠ ':' ∧ c ≠ '-' ∧ c ≠ 'v' ∧ c ≠ 'h' ∧ c ≠ '?' := by
  cases s <;> decide

theorem lookup_v (s : Script) : lookup (letters s) 'v' = some false := by cases s <;> decide

theorem cluster_argument {s : Script} {c : Char} (h : HasArgument s c) (v : Str) :
    cluster (letters s) (c :: v) = if v = [] then ([], some c) else ([(c, v)], none) := by
  obtain ⟨h1, h2, -⟩ := hasArgument_facts s c h
  rw [cluster, if_neg h2, h1]

theorem cluster_v (s : Script) (w : Str) :
    cluster (letters s) ('v' :: w) = (('v', []) :: (cluster (letters s) w).1, (cluster (letters s) w).2) := by
  rw [cluster, if_neg (by decide), lookup_v]

theorem getopts_word {os : Str} {c : Char} {cs : Str} (h : c ≠ '-') (rest : List Str) :
    getopts os none (('-' :: c :: cs) :: rest) =
      (cluster os (c :: cs)).1 ++ getopts os (cluster os (c :: cs)).2 rest := by
  rw [getopts]
  intro h1 _
  exact h h1

theorem getopts_gives {s : Script} {os : List (Char × Str)} {arguments rest : List Str}
    (h : GivesOptions s os arguments rest) :
    getopts (letters s) none arguments = os ++ getopts (letters s) none rest := by
  induction h with
  | done => rfl
  | @two c v os arguments rest hc _ ih =>
    rw [getopts_word (hasArgument_facts s c hc).2.2.1, cluster_argument hc, if_pos rfl, getopts, ih]
    rfl
  | @one c v os arguments rest hc hv _ ih =>
    rw [getopts_word (hasArgument_facts s c hc).2.2.1, cluster_argument hc, if_neg hv, ih]
    rfl
  | verbose _ ih =>
    rw [getopts_word (by decide), cluster_v]
    show ('v', []) :: getopts (letters s) none _ = _
    rw [ih]
    rfl
  | @verboseAnd c w os arguments rest hc _ ih =>
    rw [getopts_word (by decide), cluster_v, List.cons_append, List.cons_append, ← ih, getopts_word hc]

theorem getopts_none {os : Str} {rest : List Str} (h : NoMoreOptions rest) : getopts os none rest = [] := by
  cases rest with
  | nil => rfl
  | cons word more =>
    unfold getopts
    split
    · rfl
    · rcases h _ _ rfl with h | h | h
      · exact absurd rfl h
      · cases h
      · next hne _ => injection h with _ h; injection h with h1 h2; exact (hne h1 h2).elim
    · rfl

/-- The value that was given last. -/
def given (os : List (Char × Str)) (c : Char) : Option Str :=
  ((os.filter fun o => o.1 = c).getLast?).map (·.2)

theorem given_cons (c' : Char) (a : Str) (os : List (Char × Str)) (c : Char) :
    given ((c', a) :: os) c = (given os c).or (if c' = c then some a else none) := by
  unfold given
  rw [List.filter_cons]
  by_cases h : c' = c
  · simp only [h, decide_true, if_true]
    cases hf : os.filter fun o => o.1 = c with
    | nil => simp
    | cons x xs =>
      rw [List.getLast?_cons_cons]
      cases hg : (x :: xs).getLast? with
      | none => simp at hg
      | some y => rfl
  · simp only [h, decide_false, if_false]
    simp

theorem lookup_mem {l : List (Char × String)} {c : Char} {n : String} (h : l.lookup c = some n) : (c, n) ∈ l := by
  induction l with
  | nil => cases h
  | cons x l ih =>
    obtain ⟨k, v⟩ := x
    rw [List.lookup_cons] at h
    split at h
    · next he =>
      injection h with h
      rw [eq_of_beq he, h]
      exact List.mem_cons_self
    · exact List.mem_cons_of_mem _ (ih h)

theorem targets_once (s : Script) : ∀ x ∈ targets s, ∀ y ∈ targets s, x.2.toList = y.2.toList → x.1 = y.1 := by
  cases s <;> decide

theorem targets_lookup (s : Script) : ∀ x ∈ targets s, (targets s).lookup x.1 = some x.2 := by
  cases s <;> decide

theorem targets_names (s : Script) : ∀ x ∈ targets s, x.1 ≠ 'h' ∧ x.1 ≠ '?' := by cases s <;> decide

/-- What the loop over the options does. -/
theorem readOptions_spec (s : Script) {os : List (Char × Str)} (p : Params)
    (h : ∀ o ∈ os, o.1 ≠ 'h' ∧ o.1 ≠ '?') :
    ∃ q, readOptions s os p = some q ∧ ∀ x ∈ targets s, x.1 ≠ 'v' →
      q.find x.2.toList = (given os x.1).or (p.find x.2.toList) := by
  induction os generalizing p with
  | nil => exact ⟨p, rfl, fun x _ _ => rfl⟩
  | cons o os ih =>
    obtain ⟨c, a⟩ := o
    have hc := h _ List.mem_cons_self
    rw [readOptions, if_neg (fun hh => hh.elim hc.1 hc.2)]
    cases ht : (targets s).lookup c with
    | none =>
      obtain ⟨q, h1, h2⟩ := ih p fun o ho => h o (List.mem_cons_of_mem _ ho)
      refine ⟨q, h1, fun x hx hv => ?_⟩
      rw [h2 x hx hv, given_cons, if_neg, Option.or_none]
      intro he
      rw [he, targets_lookup s x hx] at ht
      cases ht
    | some n =>
      obtain ⟨q, h1, h2⟩ := ih (p.set n.toList (if c = 'v' then "1".toList else a))
        fun o ho => h o (List.mem_cons_of_mem _ ho)
      refine ⟨q, h1, fun x hx hv => ?_⟩
      rw [h2 x hx hv, given_cons, find_set]
      by_cases he : c = x.1
      · rw [he, targets_lookup s x hx] at ht
        injection ht with ht
        rw [if_pos (by rw [ht]), if_pos he, he, if_neg hv]
        cases given os x.1 <;> rfl
      · rw [if_neg (fun hn => he (targets_once s _ (lookup_mem ht) _ hx hn)), if_neg he, Option.or_none]

theorem readOptions_bad (s : Script) {os : List (Char × Str)} (p : Params) {o : Char × Str} (ho : o ∈ os)
    (hb : o.1 = 'h' ∨ o.1 = '?') : readOptions s os p = none := by
  induction os generalizing p with
  | nil => cases ho
  | cons x os ih =>
    obtain ⟨c, a⟩ := x
    rw [readOptions]
    by_cases hc : c = 'h' ∨ c = '?'
    · rw [if_pos hc]
    · rw [if_neg hc]
      have : o ∈ os := by
        rcases List.mem_cons.1 ho with rfl | h
        · exact absurd hb hc
        · exact h
      split <;> exact ih _ this

theorem gives_letters {s : Script} {os : List (Char × Str)} {arguments rest : List Str}
    (h : GivesOptions s os arguments rest) : ∀ o ∈ os, o.1 ≠ 'h' ∧ o.1 ≠ '?' := by
  have hh : ∀ {c : Char}, HasArgument s c → c ≠ 'h' ∧ c ≠ '?' := fun hc =>
    ⟨(hasArgument_facts s _ hc).2.2.2.2.1, (hasArgument_facts s _ hc).2.2.2.2.2⟩
  induction h with
  | done => intro o ho; cases ho
  | two hc _ ih =>
    intro o ho
    rcases List.mem_cons.1 ho with rfl | ho
    · exact hh hc
    · exact ih o ho
  | one hc _ _ ih =>
    intro o ho
    rcases List.mem_cons.1 ho with rfl | ho
    · exact hh hc
    · exact ih o ho
  | verbose _ ih =>
    intro o ho
    rcases List.mem_cons.1 ho with rfl | ho
    · exact ⟨by decide, by decide⟩
    · exact ih o ho
  | verboseAnd _ _ ih =>
    intro o ho
    rcases List.mem_cons.1 ho with rfl | ho
    · exact ⟨by decide, by decide⟩
    · exact ih o ho

theorem gives_no_r {os : List (Char × Str)} {arguments rest : List Str}
    (h : GivesOptions .tripartite os arguments rest) : ∀ o ∈ os, o.1 ≠ 'r' := by
  have hh : ∀ {c : Char}, HasArgument .tripartite c → c ≠ 'r' := by
    intro c hc he
    subst he
    exact absurd hc (by unfold HasArgument; decide)
  induction h with
  | done => intro o ho; cases ho
  | two hc _ ih =>
    intro o ho
    rcases List.mem_cons.1 ho with rfl | ho
    · exact hh hc
    · exact ih o ho
  | one hc _ _ ih =>
    intro o ho
    rcases List.mem_cons.1 ho with rfl | ho
    · exact hh hc
    · exact ih o ho
  | verbose _ ih =>
    intro o ho
    rcases List.mem_cons.1 ho with rfl | ho
    · decide
    · exact ih o ho
  | verboseAnd _ _ ih =>
    intro o ho
    rcases List.mem_cons.1 ho with rfl | ho
    · decide
    · exact ih o ho

/-- The defaults in the usage are those of the variables. -/
theorem initial_default (env : Str → Option Str) (s : Script) : ∀ x ∈ targets s, ∀ d,
    (workloadOptions env s).lookup x.1 = some d → (initial env s).find x.2.toList = some d := by
  have e1 : orDefault env "TIME_SECONDS" "30" = fromEnvironment env "TIME_SECONDS" "30" := by
    unfold orDefault fromEnvironment
    cases env _ with
    | none => rfl
    | some v => cases v <;> rfl
  have e2 : orDefault env "QPS" "5000" = fromEnvironment env "QPS" "5000" := by
    unfold orDefault fromEnvironment
    cases env _ with
    | none => rfl
    | some v => cases v <;> rfl
  unfold initial workloadOptions
  rw [e1, e2]
  generalize fromEnvironment env "TIME_SECONDS" "30" = t
  generalize fromEnvironment env "QPS" "5000" = q
  intro x hx d hd
  cases s <;> simp only [targets, List.mem_cons, List.not_mem_nil, or_false] at hx <;>
    rcases hx with rfl | rfl | rfl | rfl | rfl | rfl | rfl | rfl <;>
    first
    | exact hd
    | cases hd

/-- After the options, a variable has the value that was asked for. -/
theorem options_read (env : Str → Option Str) {s : Script} {os : List (Char × Str)} {arguments rest : List Str}
    (h : GivesOptions s os arguments rest) (hr : NoMoreOptions rest) :
    ∃ p, readOptions s (getopts (letters s) none arguments) (initial env s) = some p ∧
      ∀ x ∈ targets s, x.1 ∈ (workloadOptions env s).map (·.1) →
        p.find x.2.toList = some (askedFor env s os x.1) := by
  rw [getopts_gives h, getopts_none hr, List.append_nil]
  obtain ⟨p, h1, h2⟩ := readOptions_spec s (initial env s) (gives_letters h)
  refine ⟨p, h1, fun x hx hd => ?_⟩
  have hv : x.1 ≠ 'v' := by
    intro hv
    rw [hv] at hd
    have : 'v' ∉ (workloadOptions env s).map (·.1) := by
      cases s <;> simp only [workloadOptions, List.map_cons, List.map_nil] <;> decide
    exact this hd
  rw [h2 x hx hv]
  unfold askedFor given
  cases hg : (os.filter fun o => o.1 = x.1).getLast? with
  | some o => rfl
  | none =>
    obtain ⟨y, hy, hyx⟩ := List.mem_map.1 hd
    cases hl : (workloadOptions env s).lookup x.1 with
    | none =>
      rw [List.lookup_eq_none_iff] at hl
      have := hl y hy
      rw [hyx] at this
      simp at this
    | some d => exact initial_default env s x hx d hl

theorem quotedText_ok {t : Str} (h : Quotable t) : quotedText t = .ok t := by
  unfold quotedText
  rw [if_neg]
  rw [List.any_eq_true]
  rintro ⟨c, hc, hb⟩
  simp only [Bool.or_eq_true, decide_eq_true_eq] at hb
  rcases hb with (rfl | rfl) | rfl
  · exact h.1 hc
  · exact h.2.1 hc
  · exact h.2.2 hc

theorem unquoted_ok {t : Str} (h : OneWord t) : unquoted t = .ok t := by
  obtain ⟨h1, h2, h3, h4, h5, h6⟩ := h
  unfold unquoted
  rw [if_neg]
  rw [List.any_eq_true]
  rintro ⟨c, hc, hb⟩
  simp only [Bool.or_eq_true, decide_eq_true_eq] at hb
  rcases hb with ((((rfl | rfl) | rfl) | rfl) | rfl) | rfl <;> contradiction

theorem decimal_digits (n : Nat) : decimal n = digits n := (digits_toString n).symm

theorem get_find {p : Params} {key : String} {v : Str} (h : p.find key.toList = some v) : get p key = .ok v :=
  get_ok.2 h

theorem number_decimal {p : Params} {key : String} {n : Nat} (h : p.find key.toList = some (decimal n))
    (hn : n < 2 ^ 31) : number 32 p key = .ok (n : Int) := by
  rw [number, get_find h, decimal_digits]
  show protoInt 32 (digits n) = _
  rw [protoInt_digits, if_pos hn]

theorem duration_decimal {p : Params} {n : Nat} (h : p.find "TIME_SECONDS".toList = some (decimal n))
    (hn : n * 1000000 < 2 ^ 31) : duration p = .ok ((n : Int) * 1000000) := by
  rw [duration, get_find h, decimal_digits]
  show protoInt 32 (digits n ++ "000000".toList) = _
  rw [protoInt_unsigned (digits_no_sign n _) (literal_million n), if_pos hn]
  rfl

theorem limit_decimal {p : Params} {n : Nat} (h : p.find "TIME_SECONDS".toList = some (decimal n))
    (hn : n * 1000000 < 2 ^ 31) : limit p = .ok ((n : Int) + 100) := by
  rw [limit, get_find h, decimal_digits]
  show Outcome.bind (arith (digits n)) _ = _
  rw [arith_digits (by omega)]
  show Outcome.ok (wrap64 ((n : Int) + 100)) = _
  rw [wrap64_small (by omega) (by omega)]

theorem quotient_decimal {n : Nat} (h0 : 0 < n) (hn : n < 2 ^ 63) (k : Nat) :
    quotient (k : Int) (decimal n) = .ok ((k / n : Nat) : Int) := by
  rw [quotient, decimal_digits]
  show Outcome.bind (arith (digits n)) _ = _
  rw [arith_digits hn]
  show (if (n : Int) = 0 then _ else _) = _
  rw [if_neg (by omega)]
  rfl

theorem digits_all (n : Nat) : allDigits (digits n) = true := by
  unfold allDigits
  rw [Bool.and_eq_true, decide_eq_true_eq, List.all_eq_true]
  refine ⟨digits_ne_nil n, fun c hc => ?_⟩
  have := digits_isDigit n c hc
  simpa [isCDigit] using this

theorem testNumber_decimal {n : Nat} (hn : n < 2 ^ 63) : testNumber (decimal n) = some (n : Int) := by
  rw [decimal_digits]
  unfold testNumber
  split
  · next he => exact absurd he (by have := digits_no_sign n [] ; rw [List.append_nil] at this; exact this _)
  · next he =>
    have := digits_all n
    rw [he] at this
    simp [allDigits] at this
  · rw [if_pos (digits_all n), numeral_digits]
    show (if n < 2 ^ 63 then some (n : Int) else none) = _
    rw [if_pos hn]

theorem testNumber_minus {n : Nat} (hn : n ≤ 2 ^ 63) : testNumber ('-' :: decimal n) = some (-(n : Int)) := by
  rw [decimal_digits]
  unfold testNumber
  simp only [digits_all n, if_true, numeral_digits]
  show (if n ≤ 2 ^ 63 then some (-(n : Int)) else none) = _
  rw [if_pos hn]

theorem testNumber_plus {n : Nat} (hn : n < 2 ^ 63) : testNumber ('+' :: decimal n) = some (n : Int) := by
  rw [decimal_digits]
  unfold testNumber
  simp only [digits_all n, if_true, numeral_digits]
  show (if n < 2 ^ 63 then some (n : Int) else none) = _
  rw [if_pos hn]

theorem quotable_decimal (n : Nat) : Quotable (decimal n) := by
  rw [decimal_digits]
  have : ∀ c : Char, (('0' ≤ c && c ≤ '9') = false) → c ∉ digits n := by
    intro c hc hm
    have h := digits_all n
    unfold allDigits at h
    rw [Bool.and_eq_true, List.all_eq_true] at h
    rw [h.2 c hm] at hc
    cases hc
  exact ⟨this _ (by decide), this _ (by decide), this _ (by decide)⟩

/-! ### wrong use -/

theorem lookup_in {os : Str} {c : Char} {b : Bool} (h : lookup os c = some b) : c ∈ os := by
  induction os with
  | nil => cases h
  | cons o os ih =>
    rw [lookup] at h
    split at h
    · next he => rw [he]; exact List.mem_cons_self
    · exact List.mem_cons_of_mem _ (ih h)

theorem letters_other (s : Script) : ∀ c ∈ letters s, c ≠ ':' → c ∉ (workloadOptions (fun _ => none) s).map (·.1) →
    c ≠ 'v' → (c = 'h' ∨ c = '?') ∧ lookup (letters s) c = some false := by
  cases s <;> decide

theorem letters_dash (s : Script) : lookup (letters s) '-' = none := by cases s <;> decide

/-- An option that is not there makes the script show its usage. -/
theorem cluster_unknown {s : Script} {c : Char} (h1 : ¬ HasArgument s c) (h2 : c ≠ 'v') (w : Str) :
    ∃ o ∈ (cluster (letters s) (c :: w)).1, o.1 = 'h' ∨ o.1 = '?' := by
  rw [cluster]
  by_cases hc : c = ':'
  · rw [if_pos hc]
    exact ⟨_, List.mem_cons_self, Or.inr rfl⟩
  · rw [if_neg hc]
    cases hl : lookup (letters s) c with
    | none => exact ⟨_, List.mem_cons_self, Or.inr rfl⟩
    | some b =>
      obtain ⟨h3, h4⟩ := letters_other s c (lookup_in hl) hc h1 h2
      rw [hl] at h4
      cases h4
      exact ⟨_, List.mem_cons_self, h3⟩

theorem wrong_shown {s : Script} {rest : List Str} (h : WrongUse s rest) :
    ∃ o ∈ getopts (letters s) none rest, o.1 = 'h' ∨ o.1 = '?' := by
  have hw : ∀ {c : Char} {w : Str} {more : List Str}, (c = '-' → w ≠ []) →
      getopts (letters s) none (('-' :: c :: w) :: more) =
        (cluster (letters s) (c :: w)).1 ++ getopts (letters s) (cluster (letters s) (c :: w)).2 more := by
    intro c w more hne
    rw [getopts]
    intro h1 h2
    exact hne h1 h2
  cases h with
  | unknown h1 h2 h3 =>
    rw [hw h3]
    obtain ⟨o, ho, hb⟩ := cluster_unknown h1 h2 _
    exact ⟨o, List.mem_append_left _ ho, hb⟩
  | unknownDash =>
    rw [hw (fun h => by cases h), cluster_v, cluster, if_neg (by decide), letters_dash]
    exact ⟨_, List.mem_append_left _ (List.mem_cons_of_mem _ List.mem_cons_self), Or.inr rfl⟩
  | missing h1 =>
    rw [hw (fun h => absurd h (hasArgument_facts s _ h1).2.2.1), cluster_argument h1, if_pos rfl]
    exact ⟨_, List.mem_cons_self, Or.inr rfl⟩

/-- Arguments are options and then something that is none, or a wrong use. -/
theorem used (s : Script) : ∀ (n : Nat) (arguments : List Str), arguments.length ≤ n →
    ∃ os rest, GivesOptions s os arguments rest ∧ (NoMoreOptions rest ∨ WrongUse s rest) := by
  intro n
  induction n with
  | zero =>
    intro arguments hn
    cases arguments with
    | nil => exact ⟨_, _, .done, Or.inl fun _ _ h => by cases h⟩
    | cons a l => simp at hn
  | succ n ih =>
    intro arguments hn
    cases arguments with
    | nil => exact ⟨_, _, .done, Or.inl fun _ _ h => by cases h⟩
    | cons word more =>
      have hm : more.length ≤ n := by simpa using hn
      have key : ∀ (w : Str) (c : Char), c ≠ '-' → ∃ os rest, GivesOptions s os (('-' :: c :: w) :: more) rest ∧
          (NoMoreOptions rest ∨ WrongUse s rest) := by
        intro w
        induction w with
        | nil =>
          intro c hc
          by_cases ha : HasArgument s c
          · cases more with
            | nil => exact ⟨_, _, .done, Or.inr (.missing ha)⟩
            | cons v args =>
              obtain ⟨os, rest, h1, h2⟩ := ih args (by simp at hm; omega)
              exact ⟨_, rest, .two ha h1, h2⟩
          · by_cases hv : c = 'v'
            · subst hv
              obtain ⟨os, rest, h1, h2⟩ := ih more hm
              exact ⟨_, rest, .verbose h1, h2⟩
            · exact ⟨_, _, .done, Or.inr (.unknown ha hv fun h => absurd h hc)⟩
        | cons c' w ihw =>
          intro c hc
          by_cases ha : HasArgument s c
          · obtain ⟨os, rest, h1, h2⟩ := ih more hm
            exact ⟨_, rest, .one ha (by simp) h1, h2⟩
          · by_cases hv : c = 'v'
            · subst hv
              by_cases hd : c' = '-'
              · subst hd
                exact ⟨_, _, .done, Or.inr .unknownDash⟩
              · obtain ⟨os, rest, h1, h2⟩ := ihw c' hd
                exact ⟨_, rest, .verboseAnd hd h1, h2⟩
            · exact ⟨_, _, .done, Or.inr (.unknown ha hv fun h => absurd h hc)⟩
      have hno : ∀ {w : Str}, (w.head? ≠ some '-' ∨ w = ['-'] ∨ w = ['-', '-']) → NoMoreOptions (w :: more) := by
        intro w h word m he
        injection he with h1 _
        rw [← h1]
        exact h
      match word with
      | [] => exact ⟨_, _, .done, Or.inl (hno (Or.inl (by simp)))⟩
      | [a] =>
        by_cases h : a = '-'
        · exact ⟨_, _, .done, Or.inl (hno (Or.inr (Or.inl (by rw [h]))))⟩
        · exact ⟨_, _, .done, Or.inl (hno (Or.inl (by simpa using h)))⟩
      | a :: c :: w =>
        by_cases h : a = '-'
        · subst h
          by_cases hc : c = '-'
          · subst hc
            cases w with
            | nil => exact ⟨_, _, .done, Or.inl (hno (Or.inr (Or.inr rfl)))⟩
            | cons d w =>
              refine ⟨_, _, .done, Or.inr (.unknown ?_ (by decide) fun _ => by simp)⟩
              intro ha
              exact (hasArgument_facts s _ ha).2.2.1 rfl
          · exact key w c hc
        · exact ⟨_, _, .done, Or.inl (hno (Or.inl (by simpa using h)))⟩

end Distbench.Workloads
