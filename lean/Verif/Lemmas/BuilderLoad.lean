import Verif.Lemmas.Builder

/-! Lemmas about the numbers that the test builder writes, and what distbench reads from them. -/

namespace Distbench.Builder
open Services Tables

theorem numeral_append (base : Nat) (a b : Str) (acc : Nat) :
    numeral base (a ++ b) acc = (numeral base a acc).bind fun v => numeral base b v := by
  induction a generalizing acc with
  | nil => rfl
  | cons c a ih =>
    rw [List.cons_append, numeral, numeral]
    cases digitValue base c with
    | none => rfl
    | some d => exact ih _

theorem digitValue_facts : ∀ d : Fin 10, digitValue 10 (Char.ofNat (48 + d.val)) = some d.val ∧
    (d.val ≠ 0 → Char.ofNat (48 + d.val) ≠ '0') ∧ Char.ofNat (48 + d.val) ≠ '-' := by decide

theorem numeral_digits (n : Nat) : numeral 10 (digits n) 0 = some n := by
  induction n using Nat.strongRecOn with
  | ind n ih =>
    by_cases h : n < 10
    · rw [digits_lt h, numeral, (digitValue_facts ⟨n, h⟩).1]
      dsimp only [numeral]
      rw [Nat.zero_mul, Nat.zero_add]
    · rw [digits_ge (by omega), numeral_append, ih _ (by omega), Option.bind_some, numeral,
        (digitValue_facts ⟨n % 10, by omega⟩).1]
      dsimp only [numeral]
      congr 1
      omega

theorem digits_head {n : Nat} (h : n ≠ 0) : ∃ c cs, digits n = c :: cs ∧ c ≠ '0' ∧ c ≠ '-' := by
  induction n using Nat.strongRecOn with
  | ind n ih =>
    by_cases hn : n < 10
    · exact ⟨_, _, digits_lt hn, (digitValue_facts ⟨n, hn⟩).2.1 h, (digitValue_facts ⟨n, hn⟩).2.2⟩
    · obtain ⟨c, cs, h1, h2⟩ := ih (n / 10) (by omega) (by omega)
      exact ⟨c, cs ++ [Char.ofNat (48 + n % 10)], by rw [digits_ge (by omega), h1]; rfl, h2⟩

theorem literal_head {c : Char} {cs : Str} (h : c ≠ '0') : literal (c :: cs) = numeral 10 (c :: cs) 0 := by
  unfold literal
  split
  · next he => cases he
  · next he => cases he; exact absurd rfl h
  · next he => cases he; exact absurd rfl h
  · next he => cases he; exact absurd rfl h
  · rfl

theorem literal_append {n : Nat} (h : n ≠ 0) (zeros : Str) :
    literal (digits n ++ zeros) = (numeral 10 (digits n) 0).bind fun v => numeral 10 zeros v := by
  obtain ⟨c, cs, h1, h2, -⟩ := digits_head h
  rw [← numeral_append, h1, List.cons_append, literal_head h2]

theorem literal_digits (n : Nat) : literal (digits n) = some n := by
  by_cases h : n = 0
  · subst h; rw [digits_lt (by decide)]; decide
  · have := literal_append h []
    rw [List.append_nil, numeral_digits] at this
    exact this

theorem literal_thousand (n : Nat) : literal (digits n ++ "000".toList) = some (n * 1000) := by
  by_cases h : n = 0
  · subst h; rw [digits_lt (by decide)]; decide
  · rw [literal_append h, numeral_digits]
    simp only [Option.bind_some]
    show numeral 10 ['0', '0', '0'] n = _
    simp only [numeral, show digitValue 10 '0' = some 0 from rfl]
    congr 1
    omega

theorem literal_million (n : Nat) : literal (digits n ++ "000000".toList) = some (n * 1000000) := by
  by_cases h : n = 0
  · subst h; rw [digits_lt (by decide)]; decide
  · rw [literal_append h, numeral_digits]
    simp only [Option.bind_some]
    show numeral 10 ['0', '0', '0', '0', '0', '0'] n = _
    simp only [numeral, show digitValue 10 '0' = some 0 from rfl]
    congr 1
    omega

/-- A text that begins like a number has no sign. -/
theorem digits_no_sign (n : Nat) (zeros r : Str) : digits n ++ zeros ≠ '-' :: r := by
  intro he
  cases hd : digits n with
  | nil => exact digits_ne_nil n hd
  | cons c cs =>
    rw [hd, List.cons_append] at he
    injection he with h1 _
    exact (isCDigit_facts (digits_isDigit n c (by rw [hd]; exact List.mem_cons_self))).2.1 h1

theorem protoInt_unsigned {bits : Nat} {t : Str} {n : Nat} (hs : ∀ r, t ≠ '-' :: r) (h : literal t = some n) :
    protoInt bits t = if n < 2 ^ (bits - 1) then .ok (n : Int) else .error "parse" := by
  unfold protoInt
  split
  · exact absurd rfl (hs _)
  · rw [h]

theorem protoInt_digits (bits n : Nat) :
    protoInt bits (digits n) = if n < 2 ^ (bits - 1) then .ok (n : Int) else .error "parse" :=
  protoInt_unsigned (by have := digits_no_sign n []; rwa [List.append_nil] at this) (literal_digits n)

theorem wrap64_small {n : Int} (h : 0 ≤ n) (h' : n < 2 ^ 63) : wrap64 n = n := by
  unfold wrap64
  rw [Int.emod_eq_of_lt (by omega) (by omega)]
  omega

theorem arith_digits {n : Nat} (h : n < 2 ^ 63) : arith (digits n) = .ok (n : Int) := by
  have hs := digits_no_sign n []
  rw [List.append_nil] at hs
  unfold arith
  split
  · next he => exact absurd he (digits_ne_nil n)
  · next he => exact absurd he (hs _)
  · rw [literal_digits]
    dsimp only
    rw [wrap64_small (by omega) (by omega)]

theorem number_digits {bits : Nat} {p : Params} {key : String} {n : Nat} {v : Int}
    (hp : p.find key.toList = some (digits n)) (h : number bits p key = .ok v) :
    v = n ∧ n < 2 ^ (bits - 1) := by
  simp only [number, Outcome.bind_ok] at h
  obtain ⟨text, h1, h2⟩ := h
  rw [get_ok.1 h1] at hp
  cases hp
  rw [protoInt_digits] at h2
  split at h2
  · next hl => injection h2 with h2; exact ⟨h2.symm, hl⟩
  · cases h2

theorem interval_digits {p : Params} {n : Nat} {v : Int}
    (hp : p.find "rpc_interval_us".toList = some (digits n)) (h : interval p = .ok v) :
    v = n * 1000 ∧ n < 2 ^ 63 := by
  simp only [interval, Outcome.bind_ok] at h
  obtain ⟨text, h1, h2⟩ := h
  rw [get_ok.1 h1] at hp
  cases hp
  rw [protoInt_unsigned (digits_no_sign n _) (literal_thousand n)] at h2
  split at h2
  · injection h2 with h2; rw [← h2]; omega
  · cases h2

theorem protoString_ok {s v : Str} (h : protoString s = .ok v) : v = s := by
  unfold protoString at h
  split at h
  · cases h
  · injection h with h; exact h.symm

theorem duration_digits {p : Params} {n : Nat} {v : Int} (hn : n < 2 ^ 63)
    (hp : p.find "test_duration".toList = some (digits n)) (h : maxDuration p = .ok v) :
    v = n * 1000000 := by
  simp only [maxDuration, Outcome.bind_ok] at h
  obtain ⟨text, h1, d, h2, h3⟩ := h
  rw [get_ok.1 h1] at hp
  cases hp
  rw [arith_digits hn] at h2
  injection h2 with h2
  subst h2
  rw [showInt_nonneg (by omega), Int.toNat_natCast,
    protoInt_unsigned (digits_no_sign n _) (literal_million n)] at h3
  split at h3
  · injection h3 with h3; rw [← h3]; omega
  · cases h3

theorem quotient_digits {p : Params} {key : String} {n : Nat} (hn : n < 2 ^ 63) {a v : Int} {text : Str}
    (k : Nat) (hk : a = (k : Int))
    (hp : p.find key.toList = some (digits n)) (ht : get p key = .ok text)
    (h : quotient a text = .ok v) : v = ((k / n : Nat) : Int) ∧ n ≠ 0 := by
  subst hk
  rw [get_ok.1 ht] at hp
  cases hp
  simp only [quotient, Outcome.bind_ok] at h
  obtain ⟨w, h1, h2⟩ := h
  rw [arith_digits hn] at h1
  injection h1 with h1
  subst h1
  split at h2
  · cases h2
  · next h0 => injection h2 with h2; exact ⟨h2.symm, fun e => h0 (by rw [e]; rfl)⟩

theorem product_digits {x y : Nat} (hx : x < 2 ^ 31) (hy : y < 2 ^ 31) {v : Int}
    (h : product (digits x) (digits y) = .ok v) : v = (x * y : Nat) := by
  have hxy : x * y < 2 ^ 31 * 2 ^ 31 := Nat.mul_lt_mul'' hx hy
  simp only [product, Outcome.bind_ok] at h
  obtain ⟨a, h1, b, h2, h3⟩ := h
  rw [arith_digits (by omega)] at h1 h2
  cases h1
  cases h2
  rw [Outcome.ok.injEq] at h3
  rw [← h3, ← Int.natCast_mul, wrap64_small (by omega) (by omega)]

theorem levelNumbers_digits {p : Params} {roots leaves seconds qps : Nat} (hs : seconds < 2 ^ 63)
    (hq : 3 * qps < 2 ^ 63) (h1 : p.find "root_count".toList = some (digits roots))
    (h2 : p.find "leaf_count".toList = some (digits leaves))
    (h3 : p.find "test_duration".toList = some (digits seconds))
    (h4 : p.find "qps".toList = some (digits qps)) {a b c d e : Int}
    (h : levelNumbers p = .ok (a, b, c, d, e)) :
    a = roots ∧ b = leaves ∧ c = seconds * 1000000 ∧ d = ((1000000000 / qps : Nat) : Int) ∧ e = 3 * qps := by
  simp only [levelNumbers, Outcome.bind_ok] at h
  obtain ⟨v1, e1, v2, e2, v3, e3, text, e4, v5, e5, v6, e6, h⟩ := h
  simp only [Outcome.ok.injEq, Prod.mk.injEq] at h
  obtain ⟨rfl, rfl, rfl, rfl, rfl⟩ := h
  have hq' := quotient_digits (by omega) 1000000000 (by omega) h4 e4 e5
  rw [get_ok.1 e4] at h4
  cases h4
  rw [arith_digits (by omega)] at e6
  cases e6
  refine ⟨(number_digits h1 e1).1, (number_digits h2 e2).1, duration_digits hs h3 e3, ?_, ?_⟩
  · exact hq'.1
  · rw [wrap64_small (by omega) (by omega)]

theorem arith_of_proto {text : Str} {v : Int} (h : protoInt 32 text = .ok v) (hv : 0 < v) :
    arith text = .ok v := by
  unfold protoInt at h
  split at h
  · split at h
    · split at h
      · rw [Outcome.ok.injEq] at h; omega
      · cases h
    · cases h
  · next hs =>
    split at h
    · next n hn =>
      split at h
      · next hl =>
        rw [Outcome.ok.injEq] at h
        unfold arith
        split
        · rw [literal] at hn; cases hn
        · exact absurd rfl (hs _)
        · rw [hn]
          dsimp only
          rw [wrap64_small (by omega) (by omega), h]
      · cases h
    · cases h

theorem protoInt_show {n v : Int} (h0 : 0 ≤ n) {bits : Nat} (h : protoInt bits (showInt n) = .ok v) : v = n := by
  rw [showInt_nonneg h0, protoInt_digits] at h
  split at h
  · rw [Outcome.ok.injEq] at h; omega
  · cases h

end Distbench.Builder
