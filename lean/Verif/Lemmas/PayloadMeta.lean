import Verif.Lemmas.PayloadMsg

namespace Distbench.Payload
open Distbench.Spec

/-- Once `metaLoop` has returned, more fuel changes nothing. -/
theorem metaLoop_mono {mem : List Nat} {n f : Nat} {c : Int} {r : MetaResult}
    (h : metaLoop mem n f c = some r) : metaLoop mem n (f + 1) c = some r := by
  induction f generalizing c with
  | zero => simp [metaLoop] at h
  | succ f ih =>
    rw [metaLoop] at h ⊢
    simp only at h ⊢
    split at h
    · rename_i hc
      rw [if_pos hc]
      cases hr : readVarInt mem c ((mem.length : Int) - 1) with
      | ub => rw [hr] at h; exact h
      | fail => rw [hr] at h; exact h
      | ok tag c1 =>
        rw [hr] at h
        simp only at h ⊢
        split at h
        · rename_i ht
          rw [if_pos ht]
          cases hr2 : readVarInt mem c1 ((mem.length : Int) - 1) with
          | ub => rw [hr2] at h; exact h
          | fail => rw [hr2] at h; exact h
          | ok v c2 => rw [hr2] at h; exact ih h
        · rename_i ht
          rw [if_neg ht]
          split at h
          · rename_i ht2
            rw [if_pos ht2]
            cases hr2 : readVarInt mem c1 ((mem.length : Int) - 1) with
            | ub => rw [hr2] at h; exact h
            | fail => rw [hr2] at h; exact h
            | ok v c2 =>
              rw [hr2] at h
              simp only at h ⊢
              split at h
              · rename_i hk
                rw [if_pos hk]; exact h
              · rename_i hk
                rw [if_neg hk]; exact ih h
          · rename_i ht2
            rw [if_neg ht2]
            split at h
            · rename_i h3; rw [if_pos h3]; exact ih h
            · rename_i h3
              rw [if_neg h3]
              split at h
              · rename_i h4; rw [if_pos h4]; exact ih h
              · rename_i h4
                rw [if_neg h4]
                split at h
                · rename_i h5; rw [if_pos h5]; exact ih h
                · rename_i h5; rw [if_neg h5]; exact h
    · rename_i hc
      rw [if_neg hc]; exact h

theorem metaLoop_mono_le {mem : List Nat} {n f g : Nat} {c : Int} {r : MetaResult}
    (h : metaLoop mem n f c = some r) (hfg : f ≤ g) : metaLoop mem n g c = some r := by
  induction hfg with
  | refl => exact h
  | step _ ih => exact metaLoop_mono ih

/-- `MetaDataLength` has at most one outcome. -/
theorem MetaDataLength_unique {mem : List Nat} {n : Nat} {r r' : MetaResult}
    (h : MetaDataLength mem n r) (h' : MetaDataLength mem n r') : r = r' := by
  obtain ⟨f, hf⟩ := h
  obtain ⟨g, hg⟩ := h'
  have h1 := metaLoop_mono_le hf (Nat.le_max_left f g)
  have h2 := metaLoop_mono_le hg (Nat.le_max_right f g)
  rw [h1] at h2
  exact Option.some.inj h2

/-- Reading a varint produced by `MakeVarInt` in the middle of a buffer. -/
theorem readVarInt_make {mem pre suf : List Nat} {v : Nat} (hv : v < 2 ^ 64)
    (hmem : mem = pre ++ makeVarInt v ++ suf) (hbytes : ∀ b ∈ mem, b < 256) :
    readVarInt mem (pre.length : Int) ((mem.length : Int) - 1)
      = .ok v ((pre.length + (makeVarInt v).length : Nat) : Int) := by
  have hlen : mem.length = pre.length + (makeVarInt v).length + suf.length := by
    rw [hmem]; simp; omega
  have hpos : 0 < (makeVarInt v).length := by
    rw [makeVarInt_length]; exact varIntSize_pos v
  have h := readVarInt_ok_of (mem := mem) (bs := makeVarInt v) (s := pre.length)
    (e := mem.length - 1) hbytes (by omega) ?_ (makeVarInt_isVarint v)
    (by rw [makeVarInt_length]; exact varIntSize_le_ten hv)
  · rw [makeVarInt_value, Nat.mod_eq_of_lt hv] at h
    rw [← h]
    congr 1
    omega
  · refine ⟨suf, ?_⟩
    unfold slice
    rw [hmem]
    rw [List.append_assoc, List.drop_left' rfl]
    rw [List.take_of_length_le]
    simp; omega

theorem asInt64_small {v : Nat} (h : v < 2 ^ 63) : asInt64 v = v := by
  unfold asInt64; rw [if_pos h]

/-- One iteration of the loop skips one complete field other than the payload. -/
theorem metaLoop_field {mem pre suf : List Nat} {n f : Nat} {w : WireField} (hw : w.WF)
    (hmem : mem = pre ++ encodeField w ++ suf) (hbytes : ∀ b ∈ mem, b < 256)
    (hpay : ∀ b, w ≠ .bytes 15 b) :
    metaLoop mem n (f + 1) (pre.length : Int)
      = metaLoop mem n f ((pre.length + (encodeField w).length : Nat) : Int) := by
  have hlen : mem.length = pre.length + (encodeField w).length + suf.length := by
    rw [hmem]; simp; omega
  have h2 := encodeField_two_le w
  rw [metaLoop]
  simp only
  rw [if_pos (by omega)]
  cases w with
  | varint id v =>
    simp only [WireField.WF] at hw
    have hm1 : mem = pre ++ makeVarInt (id * 8 + 0) ++ (makeVarInt v ++ suf) := by
      rw [hmem]; simp [encodeField]
    have hm2 : mem = (pre ++ makeVarInt (id * 8 + 0)) ++ makeVarInt v ++ suf := by
      rw [hmem]; simp [encodeField]
    rw [readVarInt_make (by omega) hm1 hbytes]
    simp only
    rw [if_pos (by omega)]
    have := readVarInt_make (v := v) (by omega) hm2 hbytes
    rw [List.length_append] at this
    rw [this]
    simp only [encodeField, List.length_append]
    congr 2
    omega
  | fixed64 id v =>
    simp only [WireField.WF] at hw
    have hm1 : mem = pre ++ makeVarInt (id * 8 + 1) ++ (leBytes 8 v ++ suf) := by
      rw [hmem]; simp [encodeField]
    rw [readVarInt_make (by omega) hm1 hbytes]
    simp only
    rw [if_neg (by omega), if_neg (by omega), if_neg (by omega), if_pos (by omega)]
    simp only [encodeField, List.length_append, leBytes_length]
    congr 1
  | bytes id b =>
    simp only [WireField.WF] at hw
    have hm1 : mem = pre ++ makeVarInt (id * 8 + 2) ++ (makeVarInt b.length ++ b ++ suf) := by
      rw [hmem]; simp [encodeField]
    have hm2 : mem = (pre ++ makeVarInt (id * 8 + 2)) ++ makeVarInt b.length ++ (b ++ suf) := by
      rw [hmem]; simp [encodeField]
    rw [readVarInt_make (by omega) hm1 hbytes]
    simp only
    rw [if_neg (by omega), if_pos (by omega)]
    have := readVarInt_make (v := b.length) (by omega) hm2 hbytes
    rw [List.length_append] at this
    rw [this]
    simp only
    have hid : id ≠ 15 := by rintro rfl; exact hpay b rfl
    rw [asInt64_small (by omega), if_neg, asInt64_small (by omega)]
    · simp only [encodeField, List.length_append]
      congr 1
      omega
    · unfold kPayloadField; omega
  | fixed32 id v =>
    simp only [WireField.WF] at hw
    have hm1 : mem = pre ++ makeVarInt (id * 8 + 5) ++ (leBytes 4 v ++ suf) := by
      rw [hmem]; simp [encodeField]
    rw [readVarInt_make (by omega) hm1 hbytes]
    simp only
    rw [if_neg (by omega), if_neg (by omega), if_neg (by omega), if_neg (by omega),
      if_pos (by omega)]
    simp only [encodeField, List.length_append, leBytes_length]
    congr 1

/-- The loop skips any number of complete fields other than the payload. -/
theorem metaLoop_fields {mem pre suf : List Nat} {n f : Nat} {fs : List WireField}
    (hw : ∀ w ∈ fs, w.WF) (hmem : mem = pre ++ fs.flatMap encodeField ++ suf)
    (hbytes : ∀ b ∈ mem, b < 256) (hpay : ∀ b, WireField.bytes 15 b ∉ fs) :
    metaLoop mem n (f + fs.length) (pre.length : Int)
      = metaLoop mem n f ((pre.length + (fs.flatMap encodeField).length : Nat) : Int) := by
  induction fs generalizing pre with
  | nil => simp
  | cons w fs ih =>
    rw [List.length_cons, show f + (fs.length + 1) = (f + fs.length) + 1 by omega]
    have hm1 : mem = pre ++ encodeField w ++ (fs.flatMap encodeField ++ suf) := by
      rw [hmem]; simp
    have hm2 : mem = (pre ++ encodeField w) ++ fs.flatMap encodeField ++ suf := by
      rw [hmem]; simp
    rw [metaLoop_field (hw w (by simp)) hm1 hbytes
      (by rintro b rfl; exact hpay b (by simp))]
    have := ih (pre := pre ++ encodeField w) (fun w hw' => hw w (List.mem_cons_of_mem _ hw')) hm2
      (fun b hb => hpay b (List.mem_cons_of_mem _ hb))
    rw [List.length_append] at this
    rw [this, List.flatMap_cons, List.length_append]
    congr 1
    omega

/-- The loop returns when it reaches the payload field, provided at most one byte follows what the
fragment holds of the payload. -/
theorem metaLoop_payload {mem pre suf : List Nat} {n f len : Nat} (hlen : len < 2 ^ 31)
    (hmem : mem = pre ++ makeVarInt (15 * 8 + 2) ++ makeVarInt len ++ suf)
    (hsuf : suf.length ≤ len + 1) (hbytes : ∀ b ∈ mem, b < 256) :
    metaLoop mem n (f + 1) (pre.length : Int)
      = some (.ret pre.length (some (pre.length + 1 + varIntSize len))) := by
  have h1 : (makeVarInt (15 * 8 + 2)).length = 1 := by
    rw [makeVarInt_length, varIntSize_lt (by decide)]
  have hl : mem.length = pre.length + 1 + varIntSize len + suf.length := by
    rw [hmem]
    simp only [List.length_append, h1, makeVarInt_length]
  rw [metaLoop]
  simp only
  rw [if_pos (by omega)]
  have hm1 : mem = pre ++ makeVarInt (15 * 8 + 2) ++ (makeVarInt len ++ suf) := by
    rw [hmem]; simp
  have hm2 : mem = (pre ++ makeVarInt (15 * 8 + 2)) ++ makeVarInt len ++ suf := by
    rw [hmem]
  rw [readVarInt_make (by decide) hm1 hbytes]
  simp only
  rw [if_neg (show ¬ (15 * 8 + 2) % 8 = 0 by decide), if_pos trivial]
  have := readVarInt_make (v := len) (by omega) hm2 hbytes
  rw [List.length_append] at this
  rw [this]
  simp only
  rw [asInt64_small (by omega), if_pos (by decide), asInt64_small (by omega), if_pos, h1,
    makeVarInt_length]
  · congr 2
    congr 1
    omega
  · rw [h1, makeVarInt_length]; omega

/-- At the end of the fragment the final CHECK fails. -/
theorem metaLoop_end {mem : List Nat} {n f : Nat} {c : Int} (h : (mem.length : Int) ≤ c) :
    metaLoop mem n (f + 1) c = some .crash := by
  rw [metaLoop]; simp only; rw [if_neg (by omega), if_neg (by omega)]

theorem fieldsOf_no_payload (m : Msg) (h : m.payload = none) (b : List Nat) :
    WireField.bytes 15 b ∉ fieldsOf m := by
  unfold fieldsOf
  simp [h]

theorem encodeField_bytes {w : WireField} (hw : w.WF) : ∀ b ∈ encodeField w, b < 256 := by
  have hle : ∀ n v, ∀ b ∈ leBytes n v, b < 256 := by
    intro n
    induction n with
    | zero => intro v b hb; simp [leBytes] at hb
    | succ n ih =>
      intro v b hb
      simp only [leBytes, List.mem_cons] at hb
      rcases hb with rfl | hb
      · omega
      · exact ih _ b hb
  intro b hb
  cases w with
  | varint id v =>
    simp only [encodeField, List.mem_append] at hb
    rcases hb with hb | hb <;> exact makeVarInt_bytes _ b hb
  | fixed64 id v =>
    simp only [encodeField, List.mem_append] at hb
    rcases hb with hb | hb
    · exact makeVarInt_bytes _ b hb
    · exact hle _ _ b hb
  | bytes id bs =>
    simp only [encodeField, List.mem_append] at hb
    rcases hb with hb | hb | hb
    · exact makeVarInt_bytes _ b hb
    · exact makeVarInt_bytes _ b hb
    · exact hw.2.2.2 b hb
  | fixed32 id v =>
    simp only [encodeField, List.mem_append] at hb
    rcases hb with hb | hb
    · exact makeVarInt_bytes _ b hb
    · exact hle _ _ b hb

theorem flatMap_bytes {fs : List WireField} (hw : ∀ w ∈ fs, w.WF) :
    ∀ b ∈ fs.flatMap encodeField, b < 256 := by
  intro b hb
  obtain ⟨w, hw', hb'⟩ := List.mem_flatMap.1 hb
  exact encodeField_bytes (hw w hw') b hb'

/-- `collectChunks` reaches the end of the message if enough pages are allowed. -/
theorem collectChunks_spec (page : Nat) (msg acc : List Nat) (n o : Nat) (hpage : 0 < page)
    (ho : o ≤ msg.length) (hn : 1 ≤ n) (hfit : msg.length ≤ (o / page + n) * page) :
    collectChunks page msg n o acc = some (acc ++ msg.drop o) := by
  induction n generalizing o acc with
  | zero => omega
  | succ n ih =>
    rw [collectChunks]
    have hmodlt : o % page < page := Nat.mod_lt _ hpage
    have hdm : page * (o / page) + o % page = o := Nat.div_add_mod o page
    by_cases hend : o + contiguous page msg.length o = msg.length
    · rw [if_pos hend]
      have : contiguous page msg.length o = msg.length - o := by omega
      rw [this, List.take_of_length_le (by simp)]
    · rw [if_neg hend]
      have hc : contiguous page msg.length o = page - o % page := by
        unfold contiguous at hend ⊢; omega
      have ho' : o + (page - o % page) = (o / page + 1) * page := by
        rw [Nat.add_mul, Nat.mul_comm]; omega
      have hlt : o + (page - o % page) < msg.length := by
        unfold contiguous at hend; omega
      have hq : (o + (page - o % page)) / page = o / page + 1 := by
        rw [ho', Nat.mul_div_cancel _ hpage]
      rw [hc, ih _ (o + (page - o % page)) (by omega) ?_ ?_]
      · rw [List.append_assoc]
        congr 2
        rw [← List.drop_drop]
        exact List.take_append_drop _ _
      · cases n with
        | zero => exfalso; simp at hfit; omega
        | succ n => omega
      · rw [hq, show o / page + 1 + n = o / page + (n + 1) by omega]; exact hfit

end Distbench.Payload
