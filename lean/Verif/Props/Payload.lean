import Verif.Lemmas.PayloadMeta

/-! Properties C01–C05: varints, padding, serialization, fragment metadata. -/

namespace Distbench
open Payload Spec

/-! ### C01 -/

/-- C01.  Every 64-bit number is encoded as a well-formed varint denoting it, of the length given
by `VarIntSize` (1 to 10 bytes), and `ReadVarInt` started at the encoding, wherever it sits in a
buffer and wherever the buffer ends at or after it, returns the number and stops right after it. -/
theorem C01_varint_roundtrip (v : Nat) (hv : v < 2 ^ 64) :
    IsVarint (makeVarInt v) ∧ varintValue (makeVarInt v) = v ∧
    (makeVarInt v).length = varIntSize v ∧ 1 ≤ varIntSize v ∧ varIntSize v ≤ 10 ∧
    (∀ b ∈ makeVarInt v, b < 256) ∧
    ∀ pre post : List Nat, (∀ b ∈ pre ++ post, b < 256) →
      ∀ e : Nat, pre.length + (makeVarInt v).length ≤ e + 1 →
        e < (pre ++ makeVarInt v ++ post).length →
        readVarInt (pre ++ makeVarInt v ++ post) pre.length e
          = .ok v ((pre.length + (makeVarInt v).length : Nat) : Int) := by
  refine ⟨makeVarInt_isVarint v, makeVarInt_value v, makeVarInt_length v, varIntSize_pos v,
    varIntSize_le_ten hv, makeVarInt_bytes v, ?_⟩
  intro pre post hb e he1 he2
  have h := readVarInt_ok_of (mem := pre ++ makeVarInt v ++ post) (bs := makeVarInt v)
    (s := pre.length) (e := e) ?_ he2 ?_ (makeVarInt_isVarint v)
    (by rw [makeVarInt_length]; exact varIntSize_le_ten hv)
  · rwa [makeVarInt_value, Nat.mod_eq_of_lt hv] at h
  · intro b hb'
    simp only [List.mem_append] at hb' hb
    rcases hb' with (h | h) | h
    · exact hb b (Or.inl h)
    · exact makeVarInt_bytes v b h
    · exact hb b (Or.inr h)
  · unfold slice
    rw [List.append_assoc, List.drop_left' rfl, List.take_append]
    rw [List.take_of_length_le (by omega)]
    exact List.prefix_append _ _

/-- `VarIntSize` is the number of 7-bit groups: `k+1` exactly on `[128^k, 128^(k+1))`. -/
theorem C01_varIntSize_class (v k : Nat) :
    varIntSize v = k + 1 ↔ (k = 0 ∨ 128 ^ k ≤ v) ∧ v < 128 ^ (k + 1) := by
  constructor
  · intro h
    constructor
    · by_cases hk : k = 0
      · exact Or.inl hk
      · right
        refine Nat.le_of_not_lt fun hlt => ?_
        obtain ⟨j, rfl⟩ : ∃ j, k = j + 1 := ⟨k - 1, by omega⟩
        have := varIntSize_le hlt
        omega
    · refine Nat.lt_of_not_le fun hle => ?_
      have := le_varIntSize hle
      omega
  · rintro ⟨h1, h2⟩
    rcases h1 with rfl | h1
    · exact varIntSize_lt (by simpa using h2)
    · exact varIntSize_eq_succ h1 h2

example : readVarInt ([1, 2] ++ makeVarInt 300 ++ [9]) 2 4 = .ok 300 4 := by
  have h := (C01_varint_roundtrip 300 (by decide)).2.2.2.2.2.2 [1, 2] [9] (by decide) 4
  have hl : (makeVarInt 300).length = 2 := by
    rw [makeVarInt_length, (C01_varIntSize_class 300 1).2 (by decide)]
  rw [hl] at h
  exact h (by decide) (by simp [hl])

/-! ### C02 -/

/-- C02.  Complete behaviour of `ReadVarInt` on an arbitrary byte buffer with inclusive end `e`
inside the buffer: it never reads out of bounds; it succeeds exactly when the bytes from the start
on begin with a complete varint of at most 10 bytes that does not pass `e`, and then returns the
number it denotes modulo `2^64` and the position just after it; it fails otherwise. -/
theorem C02_readVarInt_total (mem : List Nat) (hbytes : ∀ b ∈ mem, b < 256) (s e : Nat)
    (he : e < mem.length) :
    readVarInt mem s e ≠ .ub ∧
    (∀ v c, readVarInt mem s e = .ok v c ↔
      ∃ n : Nat, 1 ≤ n ∧ n ≤ 10 ∧ s + n ≤ e + 1 ∧ c = ((s + n : Nat) : Int) ∧
        IsVarint (slice mem s (s + n)) ∧ v = varintValue (slice mem s (s + n)) % 2 ^ 64) ∧
    (readVarInt mem s e = .fail ↔ ∀ b ∈ slice mem s (min (s + 10) (e + 1)), 128 ≤ b) := by
  have key : ∀ n, n ≤ e + 1 - s → slice mem s (s + n) = (slice mem s (e + 1)).take n := by
    intro n hn
    unfold slice
    rw [List.take_take]
    congr 1
    omega
  have key2 : slice mem s (min (s + 10) (e + 1)) = (slice mem s (e + 1)).take 10 := by
    unfold slice
    rw [List.take_take]
    congr 1
    omega
  have hlen : (slice mem s (e + 1)).length = e + 1 - s := by
    unfold slice; simp; omega
  rw [key2]
  have pref : ∀ bs, bs <+: slice mem s (e + 1) →
      bs = slice mem s (s + bs.length) ∧ bs.length ≤ e + 1 - s := by
    intro bs hpre
    have hle := hpre.length_le
    rw [hlen] at hle
    refine ⟨?_, hle⟩
    rw [key _ hle]
    exact List.prefix_iff_eq_take.1 hpre
  rcases varint_prefix_or (slice mem s (e + 1)) 10 with ⟨bs, hpre, hv, hl10⟩ | hall
  · have hok := readVarInt_ok_of (s := s) hbytes he hpre hv hl10
    have hbs := pref bs hpre
    have hpos : 1 ≤ bs.length := by
      rcases bs with _ | ⟨b, bs⟩
      · exact hv.elim
      · simp
    refine ⟨by rw [hok]; simp, ?_, ?_⟩
    · intro v c
      rw [hok]
      constructor
      · intro h
        injection h with h1 h2
        refine ⟨bs.length, hpos, hl10, by omega, h2.symm, ?_, ?_⟩
        · rw [← hbs.1]; exact hv
        · rw [← hbs.1]; exact h1.symm
      · rintro ⟨n, hn1, hn10, hne, rfl, hv', rfl⟩
        have : slice mem s (s + n) = bs := by
          refine isVarint_prefix_unique (l := slice mem s (e + 1)) ?_ hpre hv' hv
          rw [key n (by omega)]
          exact List.take_prefix _ _
        have hn : n = bs.length := by
          rw [← this, key n (by omega), List.length_take, hlen]; omega
        rw [hn, ← hbs.1]
    · rw [hok]
      constructor
      · intro h; cases h
      · intro h
        exfalso
        obtain ⟨b, hb, hb'⟩ := isVarint_last hv
        have : b ∈ (slice mem s (e + 1)).take 10 := by
          obtain ⟨t, ht⟩ := hpre
          rw [← ht, List.take_append]
          apply List.mem_append_left
          rw [List.take_of_length_le hl10]; exact hb
        have := h b this
        omega
  · have hf := readVarInt_fail_of (s := s) hbytes he hall
    refine ⟨by rw [hf]; simp, ?_, ?_⟩
    · intro v c
      rw [hf]
      constructor
      · intro h; cases h
      · rintro ⟨n, hn1, hn10, hne, rfl, hv', rfl⟩
        exfalso
        obtain ⟨b, hb, hb'⟩ := isVarint_last hv'
        rw [key n (by omega)] at hb
        have : b ∈ (slice mem s (e + 1)).take 10 := by
          have hp : (slice mem s (e + 1)).take n <+: (slice mem s (e + 1)).take 10 :=
            List.take_prefix_take_left hn10
          exact hp.subset hb
        have := hall b this
        omega
    · rw [hf]; simp only [true_iff]; exact hall

/-- C02, truncation: a proper prefix of an encoding is rejected (the empty buffer included, given
as an inclusive end before the start). -/
theorem C02_truncated_rejected (v n : Nat) (hn : n < (makeVarInt v).length) :
    readVarInt ((makeVarInt v).take n) 0 ((n : Int) - 1) = .fail := by
  cases n with
  | zero => unfold readVarInt; rw [if_pos (by decide)]
  | succ n =>
    have hlen : ((makeVarInt v).take (n + 1)).length = n + 1 := by
      rw [List.length_take]; omega
    have hall : ∀ l : List Nat, IsVarint l → ∀ k, k < l.length → ∀ b ∈ l.take k, 128 ≤ b := by
      intro l
      induction l with
      | nil => intro h; exact h.elim
      | cons x l ih =>
        intro hv k hk b hb
        cases k with
        | zero => simp at hb
        | succ k =>
          have hne : l ≠ [] := by rintro rfl; simp at hk
          rw [isVarint_cons hne] at hv
          rw [List.take_succ_cons] at hb
          rcases List.mem_cons.1 hb with rfl | hb
          · exact hv.1
          · exact ih hv.2 k (by simpa using hk) b hb
    have h := readVarInt_fail_of (mem := (makeVarInt v).take (n + 1)) (s := 0) (e := n)
      (fun b hb => makeVarInt_bytes v b (List.mem_of_mem_take hb)) (by omega) ?_
    · rw [show ((n + 1 : Nat) : Int) - 1 = (n : Int) by omega]
      exact h
    · intro b hb
      refine hall _ (makeVarInt_isVarint v) (n + 1) hn b ?_
      unfold slice at hb
      exact List.mem_of_mem_drop (List.mem_of_mem_take (List.mem_of_mem_take hb))

example : readVarInt [0x80, 0x80] 0 1 = .fail :=
  (C02_readVarInt_total [0x80, 0x80] (by decide) 0 1 (by decide)).2.2.2 (by decide)

example : readVarInt [0xff, 0xac, 0x02] 1 2 = .ok 300 3 :=
  ((C02_readVarInt_total [0xff, 0xac, 0x02] (by decide) 1 2 (by decide)).2.1 300 3).2
    ⟨2, by decide, by decide, by decide, by decide, by simp [slice, IsVarint], by decide⟩

/-! ### C03 -/

/-- C03.  `AddPadding(msg, n)` touches only `payload` and `trim`, and the serialized size of the
result is: exactly `n` whenever `n` is the size `b` of the message without payload and trim, or at
least `b + 2`, or the current size; `b` if `n < b`; `b + 2` if `n = b + 1` (unless that is the
current size). -/
theorem C03_addPadding_size (m : Msg) (n : Nat) :
    let b := (serialize { m with payload := none, trim := none }).length
    let r := addPadding m n
    ({ r with payload := none, trim := none } : Msg) = { m with payload := none, trim := none } ∧
    (n = (serialize m).length → r = m) ∧
    (b + 2 ≤ n ∨ n = b → (serialize r).length = n) ∧
    (n ≠ (serialize m).length → n < b → (serialize r).length = b) ∧
    (n ≠ (serialize m).length → n = b + 1 → (serialize r).length = b + 2) ∧
    n ≤ (serialize r).length ∧ b ≤ (serialize r).length := by
  have hb : (serialize { m with payload := none, trim := none }).length = baseSize m := rfl
  have hs : ∀ m : Msg, (serialize m).length = byteSize m := fun _ => rfl
  simp only [hb, hs]
  have hm := byteSize_split m
  have hle : baseSize m ≤ byteSize m := by omega
  by_cases h1 : n = byteSize m
  · have hr : addPadding m n = m := by
      simp [addPadding, getPaddingForSerializedSize, h1]
    rw [hr]
    refine ⟨rfl, fun _ => rfl, fun _ => h1.symm, fun h => absurd h1 h, fun h => absurd h1 h, by omega, hle⟩
  · have hb2 : byteSize { m with payload := none, trim := none } = baseSize m := rfl
    by_cases h2 : n ≤ baseSize m
    · have hr : addPadding m n = { m with payload := none, trim := none } := by
        simp only [addPadding, getPaddingForSerializedSize, if_neg h1]
        rw [if_pos (show n ≤ byteSize { m with payload := none, trim := none } from h2)]
        simp
      rw [hr, hb2]
      refine ⟨rfl, fun h => absurd h h1, ?_, ?_, ?_, h2, Nat.le_refl _⟩
      · intro h; omega
      · intro _ _; rfl
      · intro _ h; omega
    · have hstart : byteSize { m with payload := some [], trim := none } = baseSize m + 2 := by
        rw [byteSize_split]
        simp only [List.length_nil]
        rw [varIntSize_lt (v := 0) (by decide)]
        show baseSize m + 0 + _ = _
        omega
      by_cases h3 : baseSize m + 2 ≥ n
      · have hr : addPadding m n = { m with payload := some [], trim := none } := by
          simp only [addPadding, getPaddingForSerializedSize, if_neg h1]
          rw [if_neg (show ¬ n ≤ byteSize { m with payload := none, trim := none } from h2),
            if_pos (show byteSize { m with payload := some [], trim := none } ≥ n by
              rw [hstart]; exact h3)]
          simp
        rw [hr, hstart]
        refine ⟨rfl, fun h => absurd h h1, ?_, ?_, ?_, h3, by omega⟩
        · intro h; omega
        · intro _ h; omega
        · intro _ _; rfl
      · -- the interesting case: real padding is added
        obtain ⟨pad, hpad⟩ : ∃ pad : Nat, n = baseSize m + 2 + pad := ⟨n - (baseSize m + 2), by omega⟩
        have hpadpos : 0 < pad := by omega
        have har := pad_arith pad
        simp only at har
        obtain ⟨ha1, ha2, ha3⟩ := har
        have hpi : ((n : Int) - ((baseSize m + 2 : Nat) : Int)) = (pad : Int) := by omega
        have hsize : ∀ (q : Nat) (t : Option Bool), 0 < q →
            byteSize { m with payload := some (allocPayloadCord q), trim := t }
              = baseSize m + (match t with | none => 0 | some _ => 2) + (1 + varIntSize q + q) := by
          intro q t hq
          rw [byteSize_split]
          simp only [allocPayloadCord_length]
          rfl
        have hcore : byteSize (addPadding m n) = n ∧
            ({ addPadding m n with payload := none, trim := none } : Msg)
              = { m with payload := none, trim := none } := by
          simp only [addPadding, getPaddingForSerializedSize, if_neg h1]
          rw [if_neg (show ¬ n ≤ byteSize { m with payload := none, trim := none } from h2),
            if_neg (show ¬ byteSize { m with payload := some [], trim := none } ≥ n by
              rw [hstart]; exact h3)]
          simp only [hstart, hpi, Int.toNat_natCast]
          by_cases hd : (varIntSize pad : Int) - varIntSize 0 > 0
          · rw [if_pos hd]
            by_cases hd2 : (varIntSize pad : Int)
                - varIntSize ((pad : Int) - ((varIntSize pad : Int) - varIntSize 0)).toNat > 0
            · rw [if_pos hd2]
              obtain ⟨hp1, hp2⟩ := ha3 hd hd2
              rw [if_pos (by omega)]
              refine ⟨?_, rfl⟩
              rw [hsize _ (some false) (by omega)]
              simp only
              omega
            · rw [if_neg hd2]
              obtain ⟨hp1, hp2⟩ := ha2 hd (by omega)
              rw [if_pos (by omega)]
              refine ⟨?_, rfl⟩
              rw [hsize _ none (by omega)]
              simp only
              omega
          · rw [if_neg hd]
            have hp1 := ha1 (by omega)
            simp only
            rw [if_pos hpadpos]
            refine ⟨?_, rfl⟩
            rw [hsize _ none hpadpos]
            simp only
            omega
        rw [hcore.1]
        refine ⟨hcore.2, fun h => absurd h h1, fun _ => rfl, ?_, ?_, Nat.le_refl _, by omega⟩
        · intro _ h; omega
        · intro _ h; omega

/-- The unreachable target really occurs: one byte more than the bare message is not met. -/
example : (serialize (addPadding {} 1)).length = 2 :=
  (C03_addPadding_size {} 1).2.2.2.2.1 (by decide) (by decide)

example : (serialize (addPadding { rpcIndex := some 7 } 16390)).length = 16390 :=
  (C03_addPadding_size { rpcIndex := some 7 } 16390).2.2.1 (Or.inl (by
    have : (serialize { rpcIndex := some 7 }).length = 2 := by
      simp [serialize, fieldsOf, encodeField, ofInt64, makeVarInt_lt]
    simp [this]))

/-! ### C04 -/

/-- C04.  `SerializeToCord`, with or without copy avoidance, yields exactly `ByteSizeLong()` bytes
that parse back to the message. -/
theorem C04_serializeToCord_faithful (m : Msg) (hm : m.WF) (avoidCopy : Bool) :
    parse (serializeToCord m avoidCopy) = some m ∧
    (serializeToCord m avoidCopy).length = (serialize m).length :=
  ⟨parse_serializeToCord hm avoidCopy, serializeToCord_length m avoidCopy⟩

/-- C04.  When no field follows the payload, the zero-copy bytes are the ordinary serialization. -/
theorem C04_zeroCopy_identical (m : Msg) (h32 : m.afterPayload32 = none)
    (h64 : m.afterPayload64 = none) (avoidCopy : Bool) :
    serializeToCord m avoidCopy = serialize m := by
  cases hp : m.payload with
  | none => unfold serializeToCord; rw [hp]; cases avoidCopy <;> rfl
  | some p =>
    cases avoidCopy with
    | false => unfold serializeToCord; rw [hp]
    | true =>
      rw [serializeToCord_fields m p hp]
      unfold serialize fieldsOf
      rw [hp, h32, h64]
      simp

/-- A message with every field set satisfies the hypothesis. -/
def sampleMsg : Msg :=
  { rpcIndex := some 3, traceContext := some [10, 1, 5], warmup := some true,
    responsePayloadSize := some (-1), serverProcessingTimeNs := some 1000,
    errorMessage := some [104, 105], serverInstance := some (-5), beforePayload32 := some 1,
    beforePayload64 := some 2, trim := some false, payload := some [68, 68, 68],
    afterPayload32 := some 4, afterPayload64 := some 5 }

theorem sampleMsg_wf : sampleMsg.WF := by
  unfold Msg.WF sampleMsg
  simp

example : parse (serializeToCord sampleMsg true) = some sampleMsg :=
  (C04_serializeToCord_faithful sampleMsg sampleMsg_wf true).1

/-! ### C05 -/

/-- C05 (partial: fragments that reach the first payload byte of a message whose payload is the
last field on the wire, as `SerializeToCord` arranges).  `MetaDataLength` on any prefix that
contains at least the payload's length prefix returns the length of the metadata and the offset of
the payload; the metadata parses to the message without payload, and what follows the offset in
the full message is the payload.

Missing from the full property: fragments without (the whole header of) a payload field, where the
code aborts or mis-reports — see the two counterexample theorems below. -/
theorem C05_metaDataLength_partial (m : Msg) (hm : m.WF) (p : List Nat) (hp : m.payload = some p)
    (k : Nat) (originalLength : Nat) :
    let bytes := serializeToCord m true
    let metaLen := (serialize { m with payload := none }).length
    let off := metaLen + 1 + varIntSize p.length
    off ≤ k → k ≤ bytes.length →
    (∀ r, MetaDataLength (bytes.take k) originalLength r ↔ r = .ret metaLen (some off)) ∧
    parse (bytes.take metaLen) = some { m with payload := none } ∧
    bytes.drop off = p := by
  intro bytes metaLen off hk hk2
  have htag : (makeVarInt (15 * 8 + 2)).length = 1 := by
    rw [makeVarInt_length, varIntSize_lt (by decide)]
  have hbytes : bytes = serialize { m with payload := none } ++ makeVarInt (15 * 8 + 2)
      ++ makeVarInt p.length ++ p := by
    show serializeToCord m true = _
    unfold serializeToCord; rw [hp]
  have hhdr : (serialize { m with payload := none } ++ makeVarInt (15 * 8 + 2)
      ++ makeVarInt p.length).length = off := by
    simp only [List.length_append, htag, makeVarInt_length]
    rfl
  have hplen := (hm.2.2.2.2.2.2.2.2.2.2 p hp).1
  have htake : bytes.take k = serialize { m with payload := none } ++ makeVarInt (15 * 8 + 2)
      ++ makeVarInt p.length ++ p.take (k - off) := by
    rw [hbytes, List.take_append, hhdr, List.take_of_length_le (by rw [hhdr]; exact hk)]
  have hwf := fieldsOf_wf (wf_noPayload hm)
  have hall : ∀ b ∈ bytes.take k, b < 256 := by
    intro b hb
    have hb := List.mem_of_mem_take hb
    rw [hbytes] at hb
    simp only [List.mem_append] at hb
    rcases hb with ((hb | hb) | hb) | hb
    · exact flatMap_bytes hwf b hb
    · exact makeVarInt_bytes _ b hb
    · exact makeVarInt_bytes _ b hb
    · exact (hm.2.2.2.2.2.2.2.2.2.2 p hp).2 b hb
  have hret : MetaDataLength (bytes.take k) originalLength (.ret metaLen (some off)) := by
    refine ⟨1 + (fieldsOf { m with payload := none }).length, ?_⟩
    have h1 := metaLoop_fields (mem := bytes.take k) (pre := []) (n := originalLength) (f := 1)
      (suf := makeVarInt (15 * 8 + 2) ++ makeVarInt p.length ++ p.take (k - off))
      (fs := fieldsOf { m with payload := none }) hwf
      (by rw [htake]; simp [serialize]) hall
      (fun b => fieldsOf_no_payload _ rfl b)
    simp only [List.length_nil, Nat.zero_add] at h1
    have h0 : (((0 : Nat)) : Int) = 0 := rfl
    rw [h0] at h1
    rw [h1]
    exact metaLoop_payload (f := 0) hplen htake (by rw [List.length_take]; omega) hall
  refine ⟨fun r => ⟨fun h => MetaDataLength_unique h hret, fun h => h ▸ hret⟩, ?_, ?_⟩
  · have : bytes.take metaLen = serialize { m with payload := none } := by
      rw [hbytes, List.append_assoc, List.append_assoc]
      exact List.take_left' rfl
    rw [this]
    exact parse_serialize (wf_noPayload hm)
  · rw [hbytes]
    exact List.drop_left' hhdr

example : MetaDataLength ((serializeToCord sampleMsg true).take 73) 1000
    (.ret (serialize { sampleMsg with payload := none }).length
      (some ((serialize { sampleMsg with payload := none }).length + 1 + varIntSize 3))) := by
  have h1 : (serialize { sampleMsg with payload := none }).length = 70 := by
    simp only [serialize, fieldsOf, sampleMsg, Option.map_some, Option.map_none, Option.toList,
      List.flatMap_append, List.flatMap_cons, List.flatMap_nil, List.length_append, encodeField,
      makeVarInt_length, leBytes_length, ofInt64, boolVal, List.length_nil, List.length_cons]
    rw [varIntSize_eq_succ (v := (-1 % 2 ^ 64 : Int).toNat) (k := 9) (by decide) (by decide),
      varIntSize_eq_succ (v := (1000 % 2 ^ 64 : Int).toNat) (k := 1) (by decide) (by decide),
      varIntSize_eq_succ (v := (-5 % 2 ^ 64 : Int).toNat) (k := 9) (by decide) (by decide),
      varIntSize_eq_succ (v := 16 * 8 + 5) (k := 1) (by decide) (by decide),
      varIntSize_eq_succ (v := 17 * 8 + 1) (k := 1) (by decide) (by decide)]
    repeat rw [varIntSize_lt (by decide)]
  have h2 : varIntSize 3 = 1 := varIntSize_lt (by decide)
  refine ((C05_metaDataLength_partial sampleMsg sampleMsg_wf [68, 68, 68] rfl 73 1000 ?_ ?_).1 _).2
    rfl
  · show (serialize { sampleMsg with payload := none }).length + 1 + varIntSize 3 ≤ 73
    omega
  · rw [serializeToCord_length, byteSize_split]
    have h3 := byteSize_split { sampleMsg with payload := none }
    simp only [byteSize, h1] at h3
    simp only [sampleMsg, List.length_cons, List.length_nil, Nat.zero_add]
    simp only [sampleMsg, baseSize, byteSize] at h3
    simp only [baseSize, byteSize]
    omega

/-- C05 fails for messages without payload: every complete message that has no payload field
(including the empty message) makes `MetaDataLength` fail its final CHECK and abort. -/
theorem C05_no_payload_aborts (m : Msg) (hm : m.WF) (hp : m.payload = none) (n : Nat) :
    MetaDataLength (serialize m) n .crash := by
  refine ⟨1 + (fieldsOf m).length, ?_⟩
  have h1 := metaLoop_fields (mem := serialize m) (pre := []) (n := n) (f := 1)
      (suf := []) (fs := fieldsOf m) (fieldsOf_wf hm) (by simp [serialize])
      (flatMap_bytes (fieldsOf_wf hm)) (fun b => fieldsOf_no_payload _ hp b)
  simp only [List.length_nil, Nat.zero_add] at h1
  have h0 : (((0 : Nat)) : Int) = 0 := rfl
  rw [h0] at h1
  rw [h1]
  exact metaLoop_end (by simp [serialize])

/-- C05 fails on hostile input: a length-delimited field whose length is a negative `int64` moves
the cursor backwards; on these eleven bytes `MetaDataLength` never returns. -/
theorem C05_negative_length_hangs (n : Nat) :
    ¬ ∃ r, MetaDataLength (0x0a :: makeVarInt (2 ^ 64 - 11)) n r := by
  have hv : makeVarInt (2 ^ 64 - 11) = [245, 255, 255, 255, 255, 255, 255, 255, 255, 1] := by
    repeat (rw [makeVarInt_ge (by decide)])
    rw [makeVarInt_lt (by decide)]
  rw [hv]
  rintro ⟨r, f, hf⟩
  have hbytes : ∀ b ∈ [10, 245, 255, 255, 255, 255, 255, 255, 255, 255, 1], b < 256 := by decide
  have r1 : readVarInt [10, 245, 255, 255, 255, 255, 255, 255, 255, 255, 1] 0 10 = .ok 10 1 :=
    ((C02_readVarInt_total _ hbytes 0 10 (by decide)).2.1 10 1).2
      ⟨1, by decide, by decide, by decide, by decide, by simp [slice, IsVarint], by decide⟩
  have r2 : readVarInt [10, 245, 255, 255, 255, 255, 255, 255, 255, 255, 1] 1 10
      = .ok (2 ^ 64 - 11) 11 :=
    ((C02_readVarInt_total _ hbytes 1 10 (by decide)).2.1 (2 ^ 64 - 11) 11).2
      ⟨10, by decide, by decide, by decide, by decide, by simp [slice, IsVarint], by decide⟩
  induction f with
  | zero => simp [metaLoop] at hf
  | succ f ih =>
    apply ih
    rw [metaLoop] at hf
    simp only [List.length_cons, List.length_nil] at hf
    have e1 : (((0 + 1 + 1 + 1 + 1 + 1 + 1 + 1 + 1 + 1 + 1 + 1 : Nat) : Int) - 1) = 10 := by decide
    simp only [e1, r1, r2] at hf
    exact hf

/-- What the Homa driver puts on the wire for a message (protocol_driver_homa.cc:386-391, 468-480):
the zero-copy serialization, or the one-byte placeholder when that is empty. -/
def homaWire (m : Msg) : List Nat :=
  if (serializeToCord m true).isEmpty then [7] else serializeToCord m true

/-- C05 (partial), end to end over Homa: a message received in pages of at least 4096 bytes is
reconstructed exactly if it is at most 4096 bytes long, or has a payload whose header lies within
the first page.  Missing: longer messages whose first page ends before the payload header (the
code then falls back to `SlowParse` or aborts). -/
theorem C05_homa_fastParse_partial (m : Msg) (hm : m.WF) (page maxPages : Nat) (hpage : 4096 ≤ page)
    (hfit : (homaWire m).length ≤ maxPages * page)
    (hcase : (serializeToCord m true).length ≤ 4096 ∨
      ∃ p, m.payload = some p ∧
        (serialize { m with payload := none }).length + 1 + varIntSize p.length ≤ page)
    (r : FastParseResult) :
    FastParse page maxPages (homaWire m) r ↔ r = .parsed true m := by
  have hparse := (C04_serializeToCord_faithful m hm true).1
  by_cases hemp : serializeToCord m true = []
  · have hw : homaWire m = [7] := by unfold homaWire; rw [hemp]; rfl
    have hmm : m = {} := by
      rw [hemp] at hparse
      have : parse [] = some ({} : Msg) := by decide
      rw [this] at hparse
      exact (Option.some.inj hparse).symm
    rw [hw, hmm]
    unfold FastParse
    have hc : contiguous page [7].length 0 = 1 := by
      unfold contiguous; simp; omega
    rw [hc]
    simp
  · have hw : homaWire m = serializeToCord m true := by
      unfold homaWire
      rw [if_neg (by simpa using hemp)]
    rw [hw] at hfit ⊢
    have hpos : 0 < (serializeToCord m true).length := List.length_pos_iff.2 hemp
    have hc : contiguous page (serializeToCord m true).length 0
        = min page (serializeToCord m true).length := by
      unfold contiguous; simp
    have h2le : 2 ≤ (serializeToCord m true).length := by
      rw [serializeToCord_length]
      rw [serializeToCord_length] at hpos
      unfold byteSize serialize at hpos ⊢
      cases hfs : fieldsOf m with
      | nil => rw [hfs] at hpos; simp at hpos
      | cons f fs =>
        rw [List.flatMap_cons, List.length_append]
        have := encodeField_two_le f
        omega
    unfold FastParse
    simp only [hc, List.length_take]
    rw [if_neg (by intro h; omega)]
    by_cases hsmall : (serializeToCord m true).length ≤ 4096
    · rw [if_pos ⟨hsmall, by omega⟩, List.take_of_length_le (by omega), hparse]
      simp
    · rcases hcase with h | ⟨p, hp, hoff⟩
      · exact absurd h hsmall
      rw [if_neg (by intro h; exact hsmall h.1)]
      have hblen : (serializeToCord m true).length
          = (serialize { m with payload := none }).length + 1 + varIntSize p.length + p.length := by
        have htag : (makeVarInt (15 * 8 + 2)).length = 1 := by
          rw [makeVarInt_length, varIntSize_lt (by decide)]
        unfold serializeToCord
        rw [hp]
        simp only [List.length_append, makeVarInt_length] at htag ⊢
        omega
      have hmm : ({ { m with payload := none } with payload := some p } : Msg) = m := by
        cases m; simp only at hp; subst hp; rfl
      have h1 := fun h h' => (C05_metaDataLength_partial m hm p hp
        (min page (serializeToCord m true).length) (serializeToCord m true).length h h').1
      have h2 := fun h h' => (C05_metaDataLength_partial m hm p hp
        (serializeToCord m true).length 0 h h').2
      revert h1 h2 hblen hfit hoff hsmall
      generalize serializeToCord m true = bytes
      generalize (serialize { m with payload := none }).length = metaLen
      intro hfit hsmall hoff hblen h1 h2
      have h1 := h1 (show metaLen + 1 + varIntSize p.length ≤ min page bytes.length by omega)
        (by omega)
      obtain ⟨h2, h3⟩ := h2 (show metaLen + 1 + varIntSize p.length ≤ bytes.length by omega)
        (Nat.le_refl _)
      simp only [h1, exists_eq_left]
      have htk : (bytes.take (min page bytes.length)).take metaLen = bytes.take metaLen := by
        rw [List.take_take]; congr 1; omega
      rw [if_pos (by omega), htk, h2]
      have hcol := collectChunks_spec page bytes [] maxPages
        (metaLen + 1 + varIntSize p.length) (by omega)
        (by omega) (by
          rcases Nat.eq_zero_or_pos maxPages with h | h
          · rw [h] at hfit; omega
          · exact h)
        (by
          exact Nat.le_trans hfit (Nat.mul_le_mul_right _ (Nat.le_add_left _ _)))
      rw [h3, List.nil_append] at hcol
      simp only [Option.getD_some, hcol, Option.isSome_some]
      rw [hmm]

example (r : FastParseResult) : FastParse 65536 64 (homaWire {}) r ↔ r = .parsed true {} :=
  C05_homa_fastParse_partial {} (by unfold Msg.WF; simp) 65536 64 (by decide) (by decide)
    (Or.inl (by decide)) r

/-- The gap is real: every message longer than 4096 bytes that carries no payload and arrives in
one page aborts the receiver. -/
theorem C05_homa_large_metadata_aborts (m : Msg) (hm : m.WF) (hp : m.payload = none)
    (page maxPages : Nat) (hbig : 4096 < (serialize m).length) (hpage : (serialize m).length ≤ page) :
    FastParse page maxPages (homaWire m) .crash := by
  have hs : serializeToCord m true = serialize m := by unfold serializeToCord; rw [hp]
  have hw : homaWire m = serialize m := by
    unfold homaWire
    rw [if_neg (by
      rw [hs]
      intro h
      rw [List.isEmpty_iff] at h
      rw [h] at hbig
      simp at hbig), hs]
  rw [hw]
  have hc : contiguous page (serialize m).length 0 = (serialize m).length := by
    unfold contiguous; simp; omega
  unfold FastParse
  simp only [hc, List.length_take]
  rw [if_neg (by intro h; omega), if_neg (by intro h; omega),
    List.take_of_length_le (Nat.le_refl _)]
  exact ⟨.crash, C05_no_payload_aborts m hm hp _, trivial⟩

theorem serialize_errorOnly_length (n : Nat) :
    n ≤ (serialize { errorMessage := some (List.replicate n 65) }).length := by
  simp only [serialize, fieldsOf, Option.map_some, Option.map_none, Option.toList,
    List.flatMap_append, List.flatMap_cons, List.flatMap_nil, List.length_append, encodeField,
    List.length_replicate, List.length_nil]
  omega

theorem wf_errorOnly (n : Nat) (hn : n < 2 ^ 31) :
    ({ errorMessage := some (List.replicate n 65) } : Msg).WF := by
  unfold Msg.WF
  simp only [reduceCtorEq, false_implies, implies_true, true_and, and_true, Option.some.injEq]
  rintro b rfl
  refine ⟨by simpa using hn, ?_⟩
  intro x hx
  rw [(List.mem_replicate.1 hx).2]
  decide

example : ∃ m : Msg, m.WF ∧ m.payload = none ∧ 4096 < (serialize m).length := by
  refine ⟨{ errorMessage := some (List.replicate 5000 65) }, wf_errorOnly _ (by decide), rfl, ?_⟩
  have h := serialize_errorOnly_length 5000
  omega

end Distbench
