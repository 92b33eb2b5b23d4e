import Verif.Model.Payload
import Verif.Spec.Payload

namespace Distbench.Payload
open Distbench.Spec

theorem or80 (v : Nat) : (v ||| 0x80) % 256 = v % 128 + 128 := by
  have h1 : (v ||| 0x80) % 2 ^ 8 = (v % 2 ^ 8) ||| (0x80 % 2 ^ 8) := Nat.or_mod_two_pow
  have h2 : ∀ x : Fin 256, (x.val ||| 0x80) = x.val % 128 + 128 := by decide +kernel
  have h3 := h2 ⟨v % 256, Nat.mod_lt _ (by decide)⟩
  simp only [] at h3
  have : v % 256 % 128 = v % 128 := by omega
  simp only [show (2:Nat)^8 = 256 from rfl, show 0x80 % 256 = 0x80 from rfl] at h1
  omega

theorem makeVarInt_lt {v : Nat} (h : v < 128) : makeVarInt v = [v] := by
  rw [makeVarInt]; rw [dif_neg (by omega)]; congr 1; omega

theorem makeVarInt_ge {v : Nat} (h : 128 ≤ v) :
    makeVarInt v = (v % 128 + 128) :: makeVarInt (v / 128) := by
  rw [makeVarInt]; rw [dif_pos (by omega), or80, Nat.shiftRight_eq_div_pow]

theorem varIntSize_lt {v : Nat} (h : v < 128) : varIntSize v = 1 := by
  rw [varIntSize]; rw [dif_neg (by omega)]

theorem varIntSize_ge {v : Nat} (h : 128 ≤ v) : varIntSize v = varIntSize (v / 128) + 1 := by
  rw [varIntSize]; rw [dif_pos (by omega), Nat.shiftRight_eq_div_pow]

theorem makeVarInt_length (v : Nat) : (makeVarInt v).length = varIntSize v := by
  induction v using Nat.strongRecOn with
  | ind v ih =>
    by_cases h : v < 128
    · rw [makeVarInt_lt h, varIntSize_lt h]; rfl
    · rw [makeVarInt_ge (by omega), varIntSize_ge (by omega), List.length_cons, ih _ (by omega)]

theorem makeVarInt_ne_nil (v : Nat) : makeVarInt v ≠ [] := by
  by_cases h : v < 128
  · rw [makeVarInt_lt h]; simp
  · rw [makeVarInt_ge (by omega)]; simp

theorem varIntSize_pos (v : Nat) : 1 ≤ varIntSize v := by
  by_cases h : v < 128
  · rw [varIntSize_lt h]; omega
  · rw [varIntSize_ge (by omega)]; omega

theorem isVarint_cons {b : Nat} {bs : List Nat} (h : bs ≠ []) :
    IsVarint (b :: bs) ↔ 128 ≤ b ∧ IsVarint bs := by
  cases bs with
  | nil => exact absurd rfl h
  | cons c cs => rfl

theorem makeVarInt_isVarint (v : Nat) : IsVarint (makeVarInt v) := by
  induction v using Nat.strongRecOn with
  | ind v ih =>
    by_cases h : v < 128
    · rw [makeVarInt_lt h]; exact h
    · rw [makeVarInt_ge (by omega), isVarint_cons (makeVarInt_ne_nil _)]
      exact ⟨by omega, ih _ (by omega)⟩

theorem makeVarInt_value (v : Nat) : varintValue (makeVarInt v) = v := by
  induction v using Nat.strongRecOn with
  | ind v ih =>
    by_cases h : v < 128
    · rw [makeVarInt_lt h]; simp [varintValue]; omega
    · rw [makeVarInt_ge (by omega), varintValue, ih _ (by omega)]; omega

theorem makeVarInt_bytes (v : Nat) : ∀ b ∈ makeVarInt v, b < 256 := by
  induction v using Nat.strongRecOn with
  | ind v ih =>
    by_cases h : v < 128
    · rw [makeVarInt_lt h]; simp; omega
    · rw [makeVarInt_ge (by omega)]
      intro b hb
      rcases List.mem_cons.1 hb with rfl | hb
      · omega
      · exact ih _ (by omega) b hb

theorem varIntSize_le {v k : Nat} (h : v < 128 ^ (k + 1)) : varIntSize v ≤ k + 1 := by
  induction k generalizing v with
  | zero => rw [varIntSize_lt (by simpa using h)]; omega
  | succ k ih =>
    by_cases h' : v < 128
    · rw [varIntSize_lt h']; omega
    · rw [varIntSize_ge (by omega)]
      have := ih (v := v / 128) (by rw [Nat.pow_succ] at h; omega)
      omega

theorem varIntSize_le_ten {v : Nat} (h : v < 2 ^ 64) : varIntSize v ≤ 10 :=
  varIntSize_le (k := 9) (by omega)

theorem le_varIntSize {v k : Nat} (h : 128 ^ k ≤ v) : k + 1 ≤ varIntSize v := by
  induction k generalizing v with
  | zero => exact varIntSize_pos v
  | succ k ih =>
    have h1 : 128 ≤ v := by
      have : 128 ^ 1 ≤ 128 ^ (k+1) := Nat.pow_le_pow_right (by decide) (by omega)
      omega
    rw [varIntSize_ge h1]
    have := ih (v := v / 128) (by rw [Nat.pow_succ] at h; omega)
    omega

/-- `varIntSize v = k + 1` exactly on `[128^k, 128^(k+1))` (with `0` counted in the first class). -/
theorem varIntSize_eq_succ {v k : Nat} (h0 : 128 ^ k ≤ v) (h1 : v < 128 ^ (k + 1)) :
    varIntSize v = k + 1 :=
  Nat.le_antisymm (varIntSize_le h1) (le_varIntSize h0)

theorem varIntSize_class (v : Nat) (hv : 128 ≤ v) :
    ∃ k, 1 ≤ k ∧ varIntSize v = k + 1 ∧ 128 ^ k ≤ v ∧ v < 128 ^ (k + 1) := by
  induction v using Nat.strongRecOn with
  | ind v ih =>
    by_cases h : v / 128 < 128
    · refine ⟨1, by omega, ?_, by omega, by omega⟩
      rw [varIntSize_ge hv, varIntSize_lt h]
    · obtain ⟨k, hk, h1, h2, h3⟩ := ih (v / 128) (by omega) (by omega)
      refine ⟨k + 1, by omega, ?_, ?_, ?_⟩
      · rw [varIntSize_ge hv, h1]
      · rw [Nat.pow_succ]; omega
      · rw [Nat.pow_succ]; omega

/-! ### ReadVarInt -/

/-- List form of the loop of `ReadVarInt` on the bytes between the cursor and the end pointer. -/
def scan : List Nat → Nat → Nat → Option (Nat × Nat × Nat)
  | [], _, _ => none
  | b :: l, bits, ret =>
    let byte := b &&& 0xff
    let ret' := ret ||| ((byte &&& 0x7f) <<< bits) % 2 ^ 64
    if byte ≥ 128 ∧ bits + 7 < 64 ∧ l ≠ [] then
      (scan l (bits + 7) ret').map (fun r => (r.1, r.2.1 + 1, r.2.2))
    else some (byte, 1, ret')

theorem memAt_nat (mem : List Nat) (c : Nat) : memAt mem (c : Int) = mem[c]? := by
  unfold memAt; rw [if_pos (by omega)]; simp

theorem readLoop_scan (mem l : List Nat) (e c bits ret : Nat)
    (hl : slice mem c (e + 1) = l) (he : e < mem.length) (hc : c ≤ e) :
    readLoop mem (e : Int) (c : Int) bits ret =
      (scan l bits ret).map (fun r => (r.1, (c : Int) + r.2.1, r.2.2)) := by
  induction l generalizing c bits ret with
  | nil =>
    exfalso
    have := congrArg List.length hl
    simp [slice] at this
    omega
  | cons b l ih =>
    have hlt : c < mem.length := by omega
    have hb : mem[c]? = some b ∧ slice mem (c + 1) (e + 1) = l := by
      unfold slice at *
      rw [List.drop_eq_getElem_cons hlt] at hl
      rw [show e + 1 - c = (e + 1 - (c + 1)) + 1 by omega, List.take_succ_cons] at hl
      injection hl with h1 h2
      exact ⟨by rw [List.getElem?_eq_getElem hlt, h1], h2⟩
    have hne : l ≠ [] ↔ (c : Int) + 1 ≤ e := by
      rw [← hb.2]
      simp [slice]
      omega
    rw [readLoop, memAt_nat, hb.1]
    simp only [scan]
    by_cases h : (b &&& 0xff) ≥ 128 ∧ bits + 7 < 64 ∧ l ≠ []
    · rw [dif_pos ⟨h.1, h.2.1, hne.1 h.2.2⟩, if_pos h]
      have := ih (c := c + 1) (bits := bits + 7)
        (ret := ret ||| ((b &&& 0xff &&& 0x7f) <<< bits) % 2 ^ 64) hb.2 (by have := hne.1 h.2.2; omega)
      rw [show ((c + 1 : Nat) : Int) = (c : Int) + 1 by omega] at this
      rw [this]
      cases scan l (bits + 7) (ret ||| ((b &&& 0xff &&& 0x7f) <<< bits) % 2 ^ 64) with
      | none => rfl
      | some r => simp; omega
    · rw [dif_neg (by rw [hne] at h; exact h), if_neg h]
      simp

theorem and_ff {b : Nat} (h : b < 256) : b &&& 0xff = b := by
  have := Nat.and_two_pow_sub_one_eq_mod b 8
  simp only [show (2:Nat)^8 - 1 = 0xff from rfl] at this
  rw [this]; omega

theorem and_7f (b : Nat) : b &&& 0x7f = b % 128 := by
  have := Nat.and_two_pow_sub_one_eq_mod b 7
  simpa only [show (2:Nat)^7 - 1 = 0x7f from rfl] using this

/-- One accumulation step of the loop is an addition modulo `2^64`. -/
theorem acc_step {ret bits x : Nat} (hret : ret < 2 ^ bits) (hb : bits < 64) :
    ret ||| (x <<< bits) % 2 ^ 64 = (ret + x * 2 ^ bits) % 2 ^ 64 := by
  have hsplit : (2:Nat) ^ 64 = 2 ^ bits * 2 ^ (64 - bits) := by
    rw [← Nat.pow_add]; congr 1; omega
  have h1 : (x <<< bits) % 2 ^ 64 = (x % 2 ^ (64 - bits)) <<< bits := by
    rw [Nat.shiftLeft_eq, Nat.shiftLeft_eq, hsplit, Nat.mul_comm x, Nat.mul_mod_mul_left,
      Nat.mul_comm]
  rw [h1, Nat.or_comm, ← Nat.shiftLeft_add_eq_or_of_lt hret, Nat.shiftLeft_eq]
  have h2 : (ret + x * 2 ^ bits) % 2 ^ 64 = ret + x % 2 ^ (64 - bits) * 2 ^ bits := by
    have hx : x = 2 ^ (64 - bits) * (x / 2 ^ (64 - bits)) + x % 2 ^ (64 - bits) :=
      (Nat.div_add_mod _ _).symm
    have : ret + x * 2 ^ bits
        = (ret + x % 2 ^ (64 - bits) * 2 ^ bits) + 2 ^ 64 * (x / 2 ^ (64 - bits)) := by
      conv => lhs; rw [hx]
      rw [hsplit, Nat.add_mul, Nat.mul_comm (2 ^ (64 - bits)) (x / _), Nat.mul_assoc,
        Nat.mul_comm (x / _), Nat.mul_comm (2 ^ (64 - bits)) (2 ^ bits)]
      omega
    rw [this, Nat.add_mul_mod_self_left]
    apply Nat.mod_eq_of_lt
    have h3 : x % 2 ^ (64 - bits) + 1 ≤ 2 ^ (64 - bits) := Nat.mod_lt _ (Nat.two_pow_pos _)
    have h4 := Nat.mul_le_mul_right (2 ^ bits) h3
    rw [Nat.mul_comm (2 ^ (64 - bits)), ← hsplit, Nat.add_mul] at h4
    omega
  rw [h2, Nat.add_comm]

/-- Complete description of the loop result on the bytes `l`. -/
theorem scan_spec (l : List Nat) (bits ret : Nat) (hl : l ≠ []) (hbytes : ∀ b ∈ l, b < 256)
    (hret : ret < 2 ^ bits) (j : Nat) (hj : bits = 7 * j) (hj9 : j ≤ 9) :
    (∃ bs, bs <+: l ∧ IsVarint bs ∧ bs.length ≤ 10 - j ∧
      ∃ b, b < 128 ∧
      scan l bits ret = some (b, bs.length, (ret + varintValue bs * 2 ^ bits) % 2 ^ 64)) ∨
    ((∀ b ∈ l.take (10 - j), 128 ≤ b) ∧
      ∃ b n v, 128 ≤ b ∧ n ≤ 10 - j ∧ scan l bits ret = some (b, n, v)) := by
  induction l generalizing bits ret j with
  | nil => exact absurd rfl hl
  | cons b l ih =>
    have hb : b < 256 := hbytes b (by simp)
    simp only [scan, and_ff hb, and_7f]
    rw [acc_step hret (by omega)]
    by_cases hlt : b < 128
    · left
      refine ⟨[b], ⟨l, rfl⟩, hlt, by simp; omega, b, hlt, ?_⟩
      rw [if_neg (by omega)]
      simp [varintValue]
    · by_cases hcont : bits + 7 < 64 ∧ l ≠ []
      · rw [if_pos ⟨by omega, hcont.1, hcont.2⟩]
        have hret' : (ret + b % 128 * 2 ^ bits) < 2 ^ (bits + 7) := by
          rw [Nat.pow_add]
          have : b % 128 + 1 ≤ 128 := Nat.mod_lt _ (by decide)
          have := Nat.mul_le_mul_right (2 ^ bits) this
          rw [Nat.add_mul] at this
          omega
        have hmod : (ret + b % 128 * 2 ^ bits) % 2 ^ 64 = ret + b % 128 * 2 ^ bits := by
          apply Nat.mod_eq_of_lt
          exact Nat.lt_of_lt_of_le hret' (Nat.pow_le_pow_right (by decide) (by omega))
        rw [hmod]
        have hj' : j + 1 ≤ 9 := by omega
        rcases ih (bits + 7) (ret + b % 128 * 2 ^ bits) hcont.2
            (fun x hx => hbytes x (List.mem_cons_of_mem _ hx)) hret' (j + 1) (by omega) hj' with
          ⟨bs, hpre, hv, hlen, b', hb', heq⟩ | ⟨hall, b', n, v, hb', hn, heq⟩
        · left
          refine ⟨b :: bs, ?_, ?_, ?_, b', hb', ?_⟩
          · obtain ⟨t, rfl⟩ := hpre; exact ⟨t, rfl⟩
          · rw [isVarint_cons (by rintro rfl; exact hv)]; exact ⟨by omega, hv⟩
          · simp; omega
          · rw [heq]
            simp only [Option.map_some, List.length_cons, varintValue]
            congr 3
            rw [Nat.pow_add, Nat.add_mul]
            have : 128 * varintValue bs * 2 ^ bits = varintValue bs * (2 ^ bits * 2 ^ 7) := by
              rw [Nat.mul_comm 128, Nat.mul_assoc, Nat.mul_comm 128]
            omega
        · right
          refine ⟨?_, b', n + 1, v, hb', by omega, ?_⟩
          · rw [show 10 - j = (10 - (j + 1)) + 1 by omega, List.take_succ_cons]
            intro x hx
            rcases List.mem_cons.1 hx with rfl | hx
            · omega
            · exact hall x hx
          · rw [heq]; rfl
      · right
        rw [if_neg (by intro h; exact hcont ⟨h.2.1, h.2.2⟩)]
        refine ⟨?_, b, 1, _, by omega, by omega, rfl⟩
        intro x hx
        by_cases hln : l = []
        · subst hln
          have := List.mem_of_mem_take hx
          simp at this; omega
        · have : j = 9 := by
            have : ¬ bits + 7 < 64 := fun h => hcont ⟨h, hln⟩
            omega
          subst this
          simp at hx; omega

theorem isVarint_last {bs : List Nat} (h : IsVarint bs) : ∃ b ∈ bs, b < 128 := by
  induction bs with
  | nil => exact h.elim
  | cons b l ih =>
    cases l with
    | nil => exact ⟨b, by simp, h⟩
    | cons c l =>
      obtain ⟨x, hx, hx'⟩ := ih h.2
      exact ⟨x, List.mem_cons_of_mem _ hx, hx'⟩

/-- Two complete varints that are prefixes of the same bytes are equal. -/
theorem isVarint_prefix_unique {l bs cs : List Nat} (hb : bs <+: l) (hc : cs <+: l)
    (hbv : IsVarint bs) (hcv : IsVarint cs) : bs = cs := by
  induction l generalizing bs cs with
  | nil =>
    have := List.prefix_nil.1 hb
    subst this; exact hbv.elim
  | cons x l ih =>
    cases bs with
    | nil => exact hbv.elim
    | cons b bs =>
      cases cs with
      | nil => exact hcv.elim
      | cons c cs =>
        rw [List.cons_prefix_cons] at hb hc
        obtain ⟨rfl, hb⟩ := hb
        obtain ⟨rfl, hc⟩ := hc
        congr 1
        by_cases h1 : bs = []
        · subst h1
          by_cases h2 : cs = []
          · exact h2.symm
          · rw [isVarint_cons h2] at hcv
            have := hcv.1
            simp only [IsVarint] at hbv
            omega
        · rw [isVarint_cons h1] at hbv
          by_cases h2 : cs = []
          · subst h2
            have := hbv.1
            simp only [IsVarint] at hcv
            omega
          · rw [isVarint_cons h2] at hcv
            exact ih hb hc hbv.2 hcv.2

/-- Positive characterisation of `ReadVarInt`. -/
theorem readVarInt_ok_of {mem bs : List Nat} {s e : Nat} (hbytes : ∀ b ∈ mem, b < 256)
    (he : e < mem.length) (hpre : bs <+: slice mem s (e + 1)) (hv : IsVarint bs)
    (hlen : bs.length ≤ 10) :
    readVarInt mem (s : Int) (e : Int)
      = .ok (varintValue bs % 2 ^ 64) ((s + bs.length : Nat) : Int) := by
  have hne : bs ≠ [] := by rintro rfl; exact hv
  have hslice : slice mem s (e + 1) ≠ [] := by
    intro h; rw [h] at hpre; exact hne (List.prefix_nil.1 hpre)
  have hse : s ≤ e := by
    refine Nat.le_of_not_lt fun h => hslice ?_
    simp [slice]; omega
  unfold readVarInt
  rw [if_neg (by omega), readLoop_scan mem _ e s 0 0 rfl he hse]
  have hb2 : ∀ b ∈ slice mem s (e + 1), b < 256 := fun b hb =>
    hbytes b (List.mem_of_mem_drop (List.mem_of_mem_take hb))
  rcases scan_spec (slice mem s (e + 1)) 0 0 hslice hb2 (by simp) 0 rfl (by omega) with
    ⟨cs, hcpre, hcv, hclen, b, hb, heq⟩ | ⟨hall, _⟩
  · have := isVarint_prefix_unique hpre hcpre hv hcv
    subst this
    rw [heq]
    simp only [Option.map_some]
    rw [if_neg (by omega), if_neg (by omega)]
    simp
  · exfalso
    obtain ⟨b, hb, hb'⟩ := isVarint_last hv
    have : b ∈ (slice mem s (e + 1)).take 10 := by
      obtain ⟨t, ht⟩ := hpre
      rw [← ht, List.take_append]
      apply List.mem_append_left
      rw [List.take_of_length_le hlen]; exact hb
    have := hall b this
    omega

/-- Negative characterisation of `ReadVarInt`. -/
theorem readVarInt_fail_of {mem : List Nat} {s e : Nat} (hbytes : ∀ b ∈ mem, b < 256)
    (he : e < mem.length) (hall : ∀ b ∈ (slice mem s (e + 1)).take 10, 128 ≤ b) :
    readVarInt mem (s : Int) (e : Int) = .fail := by
  unfold readVarInt
  by_cases hse : s ≤ e
  · rw [if_neg (by omega), readLoop_scan mem _ e s 0 0 rfl he hse]
    have hslice : slice mem s (e + 1) ≠ [] := by
      intro h
      have := congrArg List.length h
      simp [slice] at this; omega
    have hb2 : ∀ b ∈ slice mem s (e + 1), b < 256 := fun b hb =>
      hbytes b (List.mem_of_mem_drop (List.mem_of_mem_take hb))
    rcases scan_spec (slice mem s (e + 1)) 0 0 hslice hb2 (by simp) 0 rfl (by omega) with
      ⟨cs, hcpre, hcv, hclen, b, hb, heq⟩ | ⟨_, b, n, v, hb, hn, heq⟩
    · exfalso
      obtain ⟨b, hb, hb'⟩ := isVarint_last hcv
      have : b ∈ (slice mem s (e + 1)).take 10 := by
        obtain ⟨t, ht⟩ := hcpre
        rw [← ht, List.take_append]
        apply List.mem_append_left
        rw [List.take_of_length_le (by omega)]; exact hb
      have := hall b this
      omega
    · rw [heq]
      simp only [Option.map_some]
      by_cases h : (s : Int) + n - s > 10
      · rw [if_pos h]
      · rw [if_neg h, if_pos hb]
  · rw [if_pos (by omega)]

/-- Every byte string either starts with a complete varint of at most 10 bytes or its first ten
bytes all carry the continuation bit. -/
theorem varint_prefix_or (l : List Nat) (n : Nat) :
    (∃ bs, bs <+: l ∧ IsVarint bs ∧ bs.length ≤ n) ∨ (∀ b ∈ l.take n, 128 ≤ b) := by
  induction l generalizing n with
  | nil => right; simp
  | cons b l ih =>
    cases n with
    | zero => right; simp
    | succ n =>
      by_cases hb : b < 128
      · left; exact ⟨[b], ⟨l, rfl⟩, hb, by simp⟩
      · rcases ih n with ⟨bs, hpre, hv, hlen⟩ | hall
        · left
          refine ⟨b :: bs, ?_, ?_, by simpa using hlen⟩
          · obtain ⟨t, rfl⟩ := hpre; exact ⟨t, rfl⟩
          · rw [isVarint_cons (by rintro rfl; exact hv)]; exact ⟨by omega, hv⟩
        · right
          rw [List.take_succ_cons]
          intro x hx
          rcases List.mem_cons.1 hx with rfl | hx
          · omega
          · exact hall x hx

end Distbench.Payload
