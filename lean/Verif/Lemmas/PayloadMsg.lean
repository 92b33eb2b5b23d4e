import Verif.Lemmas.Payload

namespace Distbench.Payload
open Distbench.Spec

/-! ### Sizes -/

theorem leBytes_length (n v : Nat) : (leBytes n v).length = n := by
  induction n generalizing v with
  | zero => rfl
  | succ n ih => simp [leBytes, ih]

/-- Size of the message without payload and trim. -/
def baseSize (m : Msg) : Nat := byteSize { m with payload := none, trim := none }

theorem flatMap_opt {α : Type} (o : Option α) (g : α → WireField) :
    ((o.map g).toList.flatMap encodeField).length
      = match o with | none => 0 | some x => (encodeField (g x)).length := by
  cases o <;> simp

theorem byteSize_split (m : Msg) :
    byteSize m = baseSize m
      + (match m.trim with | none => 0 | some _ => 2)
      + (match m.payload with | none => 0 | some p => 1 + varIntSize p.length + p.length) := by
  have ht : ∀ b, (encodeField (.varint 14 (boolVal b))).length = 2 := by
    intro b
    simp only [encodeField, List.length_append, makeVarInt_length]
    rw [varIntSize_lt (by decide), varIntSize_lt (by cases b <;> decide)]
  have hp : ∀ p : List Nat, (encodeField (.bytes 15 p)).length = 1 + varIntSize p.length + p.length := by
    intro p
    simp only [encodeField, List.length_append, makeVarInt_length]
    rw [varIntSize_lt (v := 15 * 8 + 2) (by decide)]
    omega
  unfold baseSize byteSize serialize fieldsOf
  simp only [List.flatMap_append, List.length_append, flatMap_opt, ht, hp]
  cases m.trim <;> cases m.payload <;> simp only [] <;> omega

theorem allocPayloadCord_length (n : Nat) : (allocPayloadCord n).length = n := by
  simp [allocPayloadCord]

/-- The arithmetic heart of the padding computation. -/
theorem pad_arith (pad : Nat) :
    let d : Int := (varIntSize pad : Int) - varIntSize 0
    let np : Int := (pad : Int) - d
    let d2 : Int := (varIntSize pad : Int) - varIntSize np.toNat
    (d ≤ 0 → varIntSize pad = 1) ∧
    (d > 0 → d2 ≤ 0 → 0 < np ∧ (varIntSize np.toNat : Int) + np = pad + 1) ∧
    (d > 0 → d2 > 0 → 0 < np + d2 - 2 ∧
      (varIntSize (np + d2 - 2).toNat : Int) + (np + d2 - 2) + 2 = pad + 1) := by
  have h0 : varIntSize 0 = 1 := varIntSize_lt (by decide)
  by_cases hlt : pad < 128
  · have h1 := varIntSize_lt hlt
    simp only [h0, h1]
    refine ⟨fun _ => trivial, fun h => by omega, fun h => by omega⟩
  · obtain ⟨k, hk, hs, hlo, hhi⟩ := varIntSize_class pad (by omega)
    have hd : (varIntSize pad : Int) - varIntSize 0 = k := by rw [hs, h0]; omega
    simp only [hd]
    simp only [hs]
    -- `128^(j+1)` is far larger than `j`
    have hbig : ∀ j : Nat, j + 3 ≤ 128 ^ (j + 1) - 128 ^ j := by
      intro j
      induction j with
      | zero => decide
      | succ j ih =>
        have e1 : 128 ^ (j + 1 + 1) = 128 * 128 ^ (j + 1) := by rw [Nat.pow_succ, Nat.mul_comm]
        have e2 : 128 ^ (j + 1) = 128 * 128 ^ j := by rw [Nat.pow_succ, Nat.mul_comm]
        omega
    obtain ⟨j, rfl⟩ : ∃ j, k = j + 1 := ⟨k - 1, by omega⟩
    have hj := hbig j
    refine ⟨fun h => by omega, fun _ h2 => ?_, fun _ h2 => ?_⟩
    · have hnp : ((pad : Int) - ((j + 1 : Nat) : Int)).toNat = pad - (j + 1) := by omega
      rw [hnp] at h2 ⊢
      have hle : varIntSize (pad - (j + 1)) ≤ (j + 1) + 1 := varIntSize_le (by omega)
      have hge : 128 ^ j ≤ pad - (j + 1) := by omega
      refine ⟨by omega, by omega⟩
    · have hnp : ((pad : Int) - ((j + 1 : Nat) : Int)).toNat = pad - (j + 1) := by omega
      rw [hnp] at h2 ⊢
      have hge : 128 ^ j ≤ pad - (j + 1) := by omega
      have h3 := le_varIntSize hge
      have h4 : varIntSize (pad - (j + 1)) = j + 1 := by omega
      have h5 : pad - (j + 1) < 128 ^ (j + 1) := by
        refine Nat.lt_of_not_le fun h => ?_
        have := le_varIntSize h
        omega
      have hnp2 : ((pad : Int) - ((j + 1 : Nat) : Int) + (((j + 1 + 1 : Nat) : Int) - varIntSize (pad - (j + 1))) - 2).toNat
          = pad - (j + 2) := by omega
      rw [hnp2]
      have h6 : varIntSize (pad - (j + 2)) = j + 1 :=
        varIntSize_eq_succ (by omega) (by omega)
      refine ⟨by omega, by omega⟩

/-! ### Parsing what was serialized -/

theorem parseVarint_of_isVarint {bs rest : List Nat} {n : Nat} (hv : IsVarint bs)
    (hb : ∀ b ∈ bs, b < 256) (hlen : bs.length ≤ n) :
    parseVarint n (bs ++ rest) = some (varintValue bs, rest) := by
  induction bs generalizing n with
  | nil => exact hv.elim
  | cons b bs ih =>
    cases n with
    | zero => simp at hlen
    | succ n =>
      have hb256 := hb b (by simp)
      simp only [List.cons_append, parseVarint, varintValue]
      by_cases hlt : b < 128
      · rw [if_pos hlt]
        cases bs with
        | nil => simp [varintValue]; omega
        | cons c cs => exact absurd hv.1 (by omega)
      · rw [if_neg hlt]
        have hne : bs ≠ [] := by
          rintro rfl
          exact hlt hv
        rw [isVarint_cons hne] at hv
        rw [ih hv.2 (fun x hx => hb x (List.mem_cons_of_mem _ hx)) (by simpa using hlen)]
        have : b - 128 = b % 128 := by omega
        simp only [this]

theorem parseVarint_make {v : Nat} (hv : v < 2 ^ 64) (rest : List Nat) :
    parseVarint 10 (makeVarInt v ++ rest) = some (v, rest) := by
  have h := parseVarint_of_isVarint (rest := rest) (makeVarInt_isVarint v) (makeVarInt_bytes v)
    (n := 10) (by rw [makeVarInt_length]; exact varIntSize_le_ten hv)
  rwa [makeVarInt_value] at h

theorem fromLe_leBytes (n v : Nat) (h : v < 256 ^ n) : fromLe (leBytes n v) = v := by
  induction n generalizing v with
  | zero => simp at h; subst h; rfl
  | succ n ih =>
    rw [leBytes, fromLe, ih (v / 256) (by rw [Nat.pow_succ] at h; omega)]
    omega

/-- Fields that can occur on the wire. -/
def WireField.WF : WireField → Prop
  | .varint id v => 1 ≤ id ∧ id < 2 ^ 29 ∧ v < 2 ^ 64
  | .fixed64 id v => 1 ≤ id ∧ id < 2 ^ 29 ∧ v < 2 ^ 64
  | .bytes id b => 1 ≤ id ∧ id < 2 ^ 29 ∧ b.length < 2 ^ 31 ∧ ∀ x ∈ b, x < 256
  | .fixed32 id v => 1 ≤ id ∧ id < 2 ^ 29 ∧ v < 2 ^ 32

theorem parseField_encode (f : WireField) (hf : f.WF) (rest : List Nat) :
    parseField (encodeField f ++ rest) = some (f, rest) := by
  cases f with
  | varint id v =>
    simp only [WireField.WF] at hf
    simp only [encodeField, parseField, List.append_assoc]
    rw [parseVarint_make (by omega)]
    simp only
    rw [if_neg (by omega), if_pos (by omega), parseVarint_make (by omega)]
    simp only
    congr 3 <;> omega
  | fixed64 id v =>
    simp only [WireField.WF] at hf
    simp only [encodeField, parseField, List.append_assoc]
    rw [parseVarint_make (by omega)]
    simp only
    rw [if_neg (by omega), if_neg (by omega), if_pos (by omega),
      if_neg (by simp [leBytes_length])]
    rw [List.take_left' (leBytes_length 8 v), List.drop_left' (leBytes_length 8 v),
      fromLe_leBytes _ _ (by omega)]
    congr 3; omega
  | bytes id b =>
    simp only [WireField.WF] at hf
    simp only [encodeField, parseField, List.append_assoc]
    rw [parseVarint_make (by omega)]
    simp only
    rw [if_neg (by omega), if_neg (by omega), if_neg (by omega), if_pos (by omega),
      parseVarint_make (by omega)]
    simp only
    rw [if_neg (by simp), List.take_left' rfl, List.drop_left' rfl]
    congr 3; omega
  | fixed32 id v =>
    simp only [WireField.WF] at hf
    simp only [encodeField, parseField, List.append_assoc]
    rw [parseVarint_make (by omega)]
    simp only
    rw [if_neg (by omega), if_neg (by omega), if_neg (by omega), if_neg (by omega),
      if_pos (by omega), if_neg (by simp [leBytes_length])]
    rw [List.take_left' (leBytes_length 4 v), List.drop_left' (leBytes_length 4 v),
      fromLe_leBytes _ _ (by omega)]
    congr 3; omega

theorem encodeField_ne_nil (f : WireField) : encodeField f ≠ [] := by
  cases f <;> simp [encodeField, makeVarInt_ne_nil]

theorem encodeField_two_le (f : WireField) : 2 ≤ (encodeField f).length := by
  cases f with
  | varint id v =>
    simp only [encodeField, List.length_append, makeVarInt_length]
    have := varIntSize_pos (id * 8 + 0); have := varIntSize_pos v; omega
  | fixed64 id v =>
    simp only [encodeField, List.length_append, makeVarInt_length, leBytes_length]
    omega
  | bytes id b =>
    simp only [encodeField, List.length_append, makeVarInt_length]
    have := varIntSize_pos (id * 8 + 2); have := varIntSize_pos b.length; omega
  | fixed32 id v =>
    simp only [encodeField, List.length_append, makeVarInt_length, leBytes_length]
    omega

theorem parseFieldsAux_encode (fs : List WireField) (hfs : ∀ f ∈ fs, f.WF) (n : Nat)
    (hn : (fs.flatMap encodeField).length ≤ n) :
    parseFieldsAux n (fs.flatMap encodeField) = some fs := by
  induction fs generalizing n with
  | nil => cases n <;> rfl
  | cons f fs ih =>
    rw [List.flatMap_cons] at hn ⊢
    have h2 := encodeField_two_le f
    rw [List.length_append] at hn
    cases n with
    | zero => omega
    | succ n =>
      have hne : encodeField f ++ fs.flatMap encodeField ≠ [] := by
        simp [encodeField_ne_nil]
      obtain ⟨b, bs, hbs⟩ := List.exists_cons_of_ne_nil hne
      rw [hbs, parseFieldsAux, ← hbs, parseField_encode f (hfs f (by simp))]
      simp only
      rw [ih (fun g hg => hfs g (List.mem_cons_of_mem _ hg)) n (by omega)]

theorem ofInt64_lt (i : Int) : ofInt64 i < 2 ^ 64 := by unfold ofInt64; omega

theorem asInt64_ofInt64 {i : Int} (h : -2 ^ 63 ≤ i ∧ i < 2 ^ 63) : asInt64 (ofInt64 i) = i := by
  unfold asInt64 ofInt64; split <;> omega

theorem asInt32_ofInt64 {i : Int} (h : -2 ^ 31 ≤ i ∧ i < 2 ^ 31) : asInt32 (ofInt64 i) = i := by
  unfold asInt32 ofInt64
  have : ((i % 2 ^ 64).toNat % 2 ^ 32 : Nat) = (i % 2 ^ 32).toNat := by omega
  rw [this]; split <;> omega

theorem mem_opt {α β : Type} {o : Option α} {g : α → β} {x : β} :
    x ∈ (o.map g).toList ↔ ∃ a, o = some a ∧ g a = x := by
  cases o <;> simp [eq_comm]

theorem boolVal_lt (b : Bool) : boolVal b < 2 ^ 64 := by cases b <;> decide

theorem fieldsOf_wf {m : Msg} (h : m.WF) : ∀ f ∈ fieldsOf m, f.WF := by
  obtain ⟨h1, h2, h3, h4, h5, h6, h7, h8, h9, h10, h11⟩ := h
  intro f hf
  unfold fieldsOf at hf
  simp only [List.mem_append, mem_opt] at hf
  rcases hf with ((((((((((((⟨a, ha, rfl⟩ | ⟨a, ha, rfl⟩) | ⟨a, ha, rfl⟩) | ⟨a, ha, rfl⟩) |
    ⟨a, ha, rfl⟩) | ⟨a, ha, rfl⟩) | ⟨a, ha, rfl⟩) | ⟨a, ha, rfl⟩) | ⟨a, ha, rfl⟩) | ⟨a, ha, rfl⟩) |
    ⟨a, ha, rfl⟩) | ⟨a, ha, rfl⟩) | ⟨a, ha, rfl⟩)
  · exact ⟨by decide, by decide, ofInt64_lt a⟩
  · exact ⟨by decide, by decide, h9 a ha⟩
  · exact ⟨by decide, by decide, boolVal_lt a⟩
  · exact ⟨by decide, by decide, ofInt64_lt a⟩
  · exact ⟨by decide, by decide, ofInt64_lt a⟩
  · exact ⟨by decide, by decide, h10 a ha⟩
  · exact ⟨by decide, by decide, ofInt64_lt a⟩
  · exact ⟨by decide, by decide, h5 a ha⟩
  · exact ⟨by decide, by decide, h6 a ha⟩
  · exact ⟨by decide, by decide, boolVal_lt a⟩
  · exact ⟨by decide, by decide, h11 a ha⟩
  · exact ⟨by decide, by decide, h7 a ha⟩
  · exact ⟨by decide, by decide, h8 a ha⟩

theorem boolVal_ne (b : Bool) : (boolVal b != 0) = b := by cases b <;> rfl

theorem fold_opt {α : Type} (o : Option α) (g : α → WireField) (acc : Msg) :
    (o.map g).toList.foldl setField acc
      = match o with | none => acc | some x => setField acc (g x) := by
  cases o <;> rfl

theorem fold_fieldsOf {m : Msg} (h : m.WF) : (fieldsOf m).foldl setField {} = m := by
  obtain ⟨h1, h2, h3, h4, h5, h6, h7, h8, h9, h10, h11⟩ := h
  obtain ⟨a1, a2, a3, a4, a5, a6, a7, a8, a9, a10, a11, a12, a13⟩ := m
  simp only at h1 h2 h3 h4
  unfold fieldsOf
  simp only [List.foldl_append]
  have s1 : (a1.map (fun i => WireField.varint 1 (ofInt64 i))).toList.foldl setField {}
      = { rpcIndex := a1 } := by
    cases a1 with
    | none => rfl
    | some x => simp [setField, asInt32_ofInt64 (h1 x rfl)]
  rw [s1]
  have s2 : (a2.map (fun b => WireField.bytes 2 b)).toList.foldl setField { rpcIndex := a1 }
      = { rpcIndex := a1, traceContext := a2 } := by
    cases a2 <;> rfl
  rw [s2]
  have s3 : (a3.map (fun b => WireField.varint 3 (boolVal b))).toList.foldl setField
      { rpcIndex := a1, traceContext := a2 }
      = { rpcIndex := a1, traceContext := a2, warmup := a3 } := by
    cases a3 with
    | none => rfl
    | some x => cases x <;> rfl
  rw [s3]
  have s4 : (a4.map (fun i => WireField.varint 4 (ofInt64 i))).toList.foldl setField
      { rpcIndex := a1, traceContext := a2, warmup := a3 }
      = { rpcIndex := a1, traceContext := a2, warmup := a3, responsePayloadSize := a4 } := by
    cases a4 with
    | none => rfl
    | some x => simp [setField, asInt64_ofInt64 (h3 x rfl)]
  rw [s4]
  have s5 : (a5.map (fun i => WireField.varint 5 (ofInt64 i))).toList.foldl setField
      { rpcIndex := a1, traceContext := a2, warmup := a3, responsePayloadSize := a4 }
      = { rpcIndex := a1, traceContext := a2, warmup := a3, responsePayloadSize := a4,
          serverProcessingTimeNs := a5 } := by
    cases a5 with
    | none => rfl
    | some x => simp [setField, asInt64_ofInt64 (h4 x rfl)]
  rw [s5]
  have s7 : ∀ acc : Msg, acc.serverInstance = none →
      (a7.map (fun i => WireField.varint 10 (ofInt64 i))).toList.foldl setField acc
      = { acc with serverInstance := a7 } := by
    intro acc hacc
    cases a7 with
    | none => cases acc; simp only at hacc; subst hacc; rfl
    | some x => simp [setField, asInt32_ofInt64 (h2 x rfl)]
  have s10 : ∀ acc : Msg, acc.trim = none →
      (a10.map (fun b => WireField.varint 14 (boolVal b))).toList.foldl setField acc
      = { acc with trim := a10 } := by
    intro acc hacc
    cases a10 with
    | none => cases acc; simp only at hacc; subst hacc; rfl
    | some x => simp [setField, boolVal_ne]
  have s6 : ∀ acc : Msg, acc.errorMessage = none →
      (a6.map (fun b => WireField.bytes 9 b)).toList.foldl setField acc
      = { acc with errorMessage := a6 } := by
    intro acc hacc
    cases a6 with
    | none => cases acc; simp only at hacc; subst hacc; rfl
    | some x => simp [setField]
  have s8 : ∀ acc : Msg, acc.beforePayload32 = none →
      (a8.map (fun v => WireField.fixed32 12 v)).toList.foldl setField acc
      = { acc with beforePayload32 := a8 } := by
    intro acc hacc
    cases a8 with
    | none => cases acc; simp only at hacc; subst hacc; rfl
    | some x => simp [setField]
  have s9 : ∀ acc : Msg, acc.beforePayload64 = none →
      (a9.map (fun v => WireField.fixed64 13 v)).toList.foldl setField acc
      = { acc with beforePayload64 := a9 } := by
    intro acc hacc
    cases a9 with
    | none => cases acc; simp only at hacc; subst hacc; rfl
    | some x => simp [setField]
  have s11 : ∀ acc : Msg, acc.payload = none →
      (a11.map (fun b => WireField.bytes 15 b)).toList.foldl setField acc
      = { acc with payload := a11 } := by
    intro acc hacc
    cases a11 with
    | none => cases acc; simp only at hacc; subst hacc; rfl
    | some x => simp [setField]
  have s12 : ∀ acc : Msg, acc.afterPayload32 = none →
      (a12.map (fun v => WireField.fixed32 16 v)).toList.foldl setField acc
      = { acc with afterPayload32 := a12 } := by
    intro acc hacc
    cases a12 with
    | none => cases acc; simp only at hacc; subst hacc; rfl
    | some x => simp [setField]
  have s13 : ∀ acc : Msg, acc.afterPayload64 = none →
      (a13.map (fun v => WireField.fixed64 17 v)).toList.foldl setField acc
      = { acc with afterPayload64 := a13 } := by
    intro acc hacc
    cases a13 with
    | none => cases acc; simp only at hacc; subst hacc; rfl
    | some x => simp [setField]
  rw [s6 _ rfl, s7 _ rfl, s8 _ rfl, s9 _ rfl, s10 _ rfl, s11 _ rfl, s12 _ rfl, s13 _ rfl]

theorem parse_fields {fs : List WireField} (hfs : ∀ f ∈ fs, f.WF) :
    parse (fs.flatMap encodeField) = some (fs.foldl setField {}) := by
  unfold parse
  rw [parseFieldsAux_encode fs hfs _ (Nat.le_refl _)]
  rfl

theorem serializeToCord_fields (m : Msg) (p : List Nat) (hp : m.payload = some p) :
    serializeToCord m true
      = ((fieldsOf { m with payload := none }) ++ [WireField.bytes 15 p]).flatMap encodeField := by
  unfold serializeToCord
  rw [hp]
  simp [serialize, encodeField]

theorem wf_noPayload {m : Msg} (h : m.WF) : ({ m with payload := none } : Msg).WF := by
  obtain ⟨h1, h2, h3, h4, h5, h6, h7, h8, h9, h10, h11⟩ := h
  exact ⟨h1, h2, h3, h4, h5, h6, h7, h8, h9, h10, by simp⟩

theorem parse_serialize {m : Msg} (h : m.WF) : parse (serialize m) = some m := by
  unfold serialize
  rw [parse_fields (fieldsOf_wf h), fold_fieldsOf h]

theorem parse_serializeToCord {m : Msg} (h : m.WF) (c : Bool) :
    parse (serializeToCord m c) = some m := by
  cases hp : m.payload with
  | none => unfold serializeToCord; rw [hp]; cases c <;> exact parse_serialize h
  | some p =>
    cases c with
    | false => unfold serializeToCord; rw [hp]; exact parse_serialize h
    | true =>
      rw [serializeToCord_fields m p hp, parse_fields, List.foldl_append,
        fold_fieldsOf (wf_noPayload h)]
      · simp only [List.foldl_cons, List.foldl_nil, setField, ← hp]
      · intro f hf
        rcases List.mem_append.1 hf with hf | hf
        · exact fieldsOf_wf (wf_noPayload h) f hf
        · simp only [List.mem_singleton] at hf
          subst hf
          exact ⟨by decide, by decide, h.2.2.2.2.2.2.2.2.2.2 p hp⟩

theorem serializeToCord_length (m : Msg) (c : Bool) :
    (serializeToCord m c).length = byteSize m := by
  cases hp : m.payload with
  | none => unfold serializeToCord; rw [hp]; cases c <;> rfl
  | some p =>
    cases c with
    | false => unfold serializeToCord; rw [hp]; rfl
    | true =>
      rw [byteSize_split m, hp]
      unfold serializeToCord
      rw [hp]
      simp only [List.length_append, makeVarInt_length]
      have h := byteSize_split { m with payload := none }
      unfold byteSize at h
      rw [h, varIntSize_lt (v := 15 * 8 + 2) (by decide)]
      simp only [baseSize]
      omega

end Distbench.Payload
