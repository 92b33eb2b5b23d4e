import Verif.Spec.Digest
import Verif.Props.Analysis

/-! Lemmas about the latency reports. -/

namespace Distbench.Digest
open Distbench.Spec
open Analysis (sortBy intLe sortBy_perm sortBy_sorted sorted_ints)

/-! ### Reading -/

theorem get_add (r : Rtts) (k : Int) (u : Rat) (h : (r.map Prod.fst).Nodup) :
    ((r.add k u).map Prod.fst).Nodup ∧
    (∀ x, x ∈ (r.add k u).map Prod.fst ↔ x ∈ r.map Prod.fst ∨ x = k) ∧
    ∀ e ∈ r.add k u, (e.1 ≠ k ∧ e ∈ r) ∨
      (e.1 = k ∧ ((∃ l, (k, l) ∈ r ∧ e.2 = l ++ [u]) ∨ (k ∉ r.map Prod.fst ∧ e.2 = [u]))) := by
  induction r with
  | nil =>
    refine ⟨by simp [Rtts.add], by simp [Rtts.add], ?_⟩
    intro e he
    rw [Rtts.add, List.mem_singleton] at he
    subst he
    exact .inr ⟨rfl, .inr ⟨by simp, rfl⟩⟩
  | cons e r ih =>
    obtain ⟨k', l⟩ := e
    rw [List.map_cons, List.nodup_cons] at h
    rw [Rtts.add]
    split
    · next hk =>
      subst hk
      refine ⟨by simpa using h, fun x => ⟨fun a => .inl a, fun a => a.elim id fun e => by simp [e]⟩, ?_⟩
      intro e he
      rcases List.mem_cons.1 he with rfl | he
      · exact .inr ⟨rfl, .inl ⟨l, by simp, rfl⟩⟩
      · refine .inl ⟨?_, by simp [he]⟩
        intro e1
        have := List.mem_map_of_mem (f := Prod.fst) he
        rw [e1] at this
        exact h.1 this
    · next hk =>
      obtain ⟨i1, i2, i3⟩ := ih h.2
      refine ⟨?_, ?_, ?_⟩
      · rw [List.map_cons, List.nodup_cons]
        refine ⟨?_, i1⟩
        rw [i2]
        rintro (h' | h')
        · exact h.1 h'
        · exact hk h'
      · intro x
        rw [List.map_cons, List.mem_cons, i2, List.map_cons, List.mem_cons]
        constructor
        · rintro (a | a | a)
          · exact .inl (.inl a)
          · exact .inl (.inr a)
          · exact .inr a
        · rintro ((a | a) | a)
          · exact .inl a
          · exact .inr (.inl a)
          · exact .inr (.inr a)
      · intro e he
        rcases List.mem_cons.1 he with rfl | he
        · exact .inl ⟨hk, by simp⟩
        · rcases i3 e he with ⟨a, b⟩ | ⟨a, ⟨l', b, c⟩ | ⟨b, c⟩⟩
          · exact .inl ⟨a, by simp [b]⟩
          · exact .inr ⟨a, .inl ⟨l', by simp [b], c⟩⟩
          · refine .inr ⟨a, .inr ⟨?_, c⟩⟩
            rw [List.map_cons, List.mem_cons]
            rintro (d | d)
            · exact hk d.symm
            · exact b d

theorem usecOf_append (a b : List (Int × Rat)) (k : Int) : usecOf (a ++ b) k = usecOf a k ++ usecOf b k := by
  simp [usecOf]

theorem usecOf_none {msgs : List (Int × Rat)} {k : Int} (h : ¬Occurs msgs k) : usecOf msgs k = [] := by
  rw [usecOf, List.map_eq_nil_iff, List.filter_eq_nil_iff]
  intro m hm e
  exact h ⟨m, hm, by simpa using e⟩

theorem groups_add {r : Rtts} {msgs : List (Int × Rat)} (h : ByLength r msgs) (k : Int) (u : Rat) :
    ByLength (r.add k u) (msgs ++ [(k, u)]) := by
  obtain ⟨h1, h2, h3⟩ := h
  obtain ⟨a1, a2, a3⟩ := get_add r k u h1
  refine ⟨a1, ?_, ?_⟩
  · intro x
    rw [a2, h2]
    constructor
    · rintro (⟨m, hm, e⟩ | rfl)
      · exact ⟨m, by simp [hm], e⟩
      · exact ⟨(x, u), by simp, rfl⟩
    · rintro ⟨m, hm, e⟩
      rcases List.mem_append.1 hm with hm | hm
      · exact .inl ⟨m, hm, e⟩
      · rw [List.mem_singleton] at hm
        subst hm
        exact .inr e.symm
  · intro e he
    rw [usecOf_append]
    rcases a3 e he with ⟨a, b⟩ | ⟨a, ⟨l, b, c⟩ | ⟨b, c⟩⟩
    · rw [h3 e b, show usecOf [(k, u)] e.1 = [] by simp [usecOf]; exact fun x => a x.symm]
      simp
    · rw [c, a, ← h3 _ b]
      simp [usecOf]
    · rw [h2] at b
      rw [c, a, usecOf_none b]
      simp [usecOf]

theorem blank_of {c : Char} (h : 32 < c.toNat) : isBlank c = false := by
  have : c ≠ ' ' := by rintro rfl; exact absurd h (by decide)
  simp only [isBlank, Bool.or_eq_false_iff, decide_eq_false_iff_not, Bool.and_eq_false_iff]
  exact ⟨⟨this, .inr (by omega)⟩, .inr (by omega)⟩

theorem splitWords_word {w : Str} (h0 : w ≠ []) (hw : ∀ c ∈ w, isBlank c = false) (rest : Str)
    (hr : rest = [] ∨ ∃ b t, rest = b :: t ∧ isBlank b = true) :
    splitWords (w ++ rest) = w :: splitWords rest := by
  induction w with
  | nil => exact absurd rfl h0
  | cons c w ih =>
    have hc := hw c (by simp)
    cases w with
    | nil =>
      rcases hr with rfl | ⟨b, t, rfl, hb⟩
      · simp [splitWords, hc]
      · rw [List.cons_append, List.nil_append, splitWords, if_neg (by simp [hc])]
        simp [hb]
    | cons d w =>
      have ih := ih (by simp) fun x hx => hw x (by simp [hx])
      rw [List.cons_append] at ih
      rw [List.cons_append, List.cons_append, splitWords, if_neg (by simp [hc])]
      simp only [hw d (by simp), Bool.false_eq_true, if_false]
      rw [ih]

theorem splitWords_blanks (n : Nat) (rest : Str) :
    splitWords (List.replicate n ' ' ++ rest) = splitWords rest := by
  induction n with
  | zero => rfl
  | succ n ih =>
    rw [List.replicate_succ, List.cons_append, splitWords.eq_def]
    simp only [show isBlank ' ' = true by decide, if_true]
    exact ih

/-- A word, blanks and a word, in columns. -/
theorem splitWords_line {a b : Str} (ha : ∀ c ∈ a, isBlank c = false) (hb : ∀ c ∈ b, isBlank c = false)
    (ha0 : a ≠ []) (hb0 : b ≠ []) : splitWords (Analysis.pad15 a ++ ' ' :: b) = [a, b] := by
  have h1 : Analysis.pad15 a ++ ' ' :: b = a ++ (List.replicate (15 - a.length + 1) ' ' ++ b) := by
    rw [Analysis.pad15, List.replicate_succ']
    simp
  rw [h1, splitWords_word ha0 ha _ (.inr ⟨' ', _, by rw [List.replicate_succ, List.cons_append], by decide⟩),
    splitWords_blanks]
  have := splitWords_word hb0 hb [] (.inl rfl)
  rw [List.append_nil] at this
  rw [this]
  rfl

theorem fileLines_line {l : Str} (h : '\n' ∉ l) (rest : Str) :
    fileLines (l ++ '\n' :: rest) = l :: fileLines rest := by
  induction l with
  | nil => simp [fileLines]
  | cons c l ih =>
    have hc : c ≠ '\n' := fun e => h (by simp [e])
    rw [List.cons_append, fileLines, if_neg hc, ih fun e => h (by simp [e])]

theorem showInt_large (n : Int) : ∀ c ∈ Services.showInt n, 32 < c.toNat := by
  intro c hc
  rcases Analysis.showInt_chars n c hc with rfl | h
  · decide
  · simp only [Services.isCDigit, Bool.and_eq_true, decide_eq_true_eq] at h
    have := h.1
    have : '0'.toNat ≤ c.toNat := this
    have h0 : '0'.toNat = 48 := rfl
    omega

theorem showInt_head (n : Int) : (Services.showInt n).head? ≠ some '#' := by
  intro h
  have := Analysis.showInt_chars n '#' (List.mem_of_mem_head? h)
  exact absurd this (by decide)

theorem newline_not {w : Str} (h : ∀ c ∈ w, 32 < c.toNat) : '\n' ∉ w := fun hm => absurd (h _ hm) (by decide)

theorem read_rows {py : Python} (hf : Faithful py) (rows : List (Int × Int)) :
    ∀ (r : Rtts) (msgs : List (Int × Rat)), ByLength r msgs →
    ∃ r', readLines py r (fileLines (rows.flatMap fun r =>
        Analysis.pad15 (Services.showInt r.1) ++ ' ' :: py.repr ((r.2 : Rat) / 1000) ++ ['\n'])) = .ok r' ∧
      ByLength r' (msgs ++ rows.map fun r => (r.1, (r.2 : Rat) / 1000)) := by
  induction rows with
  | nil => intro r msgs h; exact ⟨r, rfl, by simpa using h⟩
  | cons x rows ih =>
    intro r msgs h
    have hn : '\n' ∉ Analysis.pad15 (Services.showInt x.1) ++ ' ' :: py.repr ((x.2 : Rat) / 1000) := by
      rw [List.mem_append, List.mem_cons]
      rintro (h | h | h)
      · exact Analysis.pad15_newline (newline_not (showInt_large _)) h
      · exact absurd h (by decide)
      · exact newline_not (hf.word _).2 h
    obtain ⟨r', e, g⟩ := ih (r.add x.1 ((x.2 : Rat) / 1000)) (msgs ++ [(x.1, (x.2 : Rat) / 1000)])
      (groups_add h _ _)
    refine ⟨r', ?_, by simpa using g⟩
    rw [List.flatMap_cons, List.append_assoc, List.singleton_append, fileLines_line hn, readLines, readLine,
      splitWords_line (fun c hc => blank_of (showInt_large _ c hc))
        (fun c hc => blank_of ((hf.word _).2 c hc)) (Analysis.showInt_ne_nil _) (hf.word _).1]
    dsimp only
    rw [if_neg (showInt_head _), hf.toInt, hf.toFloat]
    exact e

/-! ### Counting -/

theorem get_of_mem {r : Rtts} (h : (r.map Prod.fst).Nodup) {k : Int} {l : List Rat} (hm : (k, l) ∈ r) :
    r.get k = some l := by
  induction r with
  | nil => cases hm
  | cons e r ih =>
    obtain ⟨k', l'⟩ := e
    rw [List.map_cons, List.nodup_cons] at h
    rcases List.mem_cons.1 hm with he | hm
    · cases he; rw [Rtts.get, if_pos rfl]
    · rw [Rtts.get, if_neg, ih h.2 hm]
      intro he
      have := List.mem_map_of_mem (f := Prod.fst) hm
      exact h.1 (by simpa [he] using this)

theorem get_groups {r : Rtts} {msgs : List (Int × Rat)} (h : ByLength r msgs) {k : Int} (hk : Occurs msgs k) :
    r.get k = some (usecOf msgs k) := by
  obtain ⟨⟨k', l⟩, he, rfl⟩ := List.mem_map.1 ((h.2.1 k).2 hk)
  rw [get_of_mem h.1 he]
  exact congrArg some (h.2.2 _ he)

theorem usecOf_length (msgs : List (Int × Rat)) (k : Int) :
    (usecOf msgs k).length = msgs.countP fun m => m.1 = k := by
  rw [usecOf, List.length_map, List.countP_eq_length_filter]

theorem usecOf_pos {msgs : List (Int × Rat)} {k : Int} (h : Occurs msgs k) : 0 < (usecOf msgs k).length := by
  rw [usecOf_length, List.countP_pos_iff]
  obtain ⟨m, hm, e⟩ := h
  exact ⟨m, hm, by simpa using e⟩

theorem countP_or {α : Type} {p q : α → Bool} (l : List α) (h : ∀ a ∈ l, ¬(p a = true ∧ q a = true)) :
    l.countP (fun a => p a || q a) = l.countP p + l.countP q := by
  induction l with
  | nil => rfl
  | cons a l ih =>
    rw [List.countP_cons, List.countP_cons, List.countP_cons, ih fun b hb => h b (by simp [hb])]
    have := h a (by simp)
    cases hp : p a <;> cases hq : q a <;> simp_all <;> omega

/-- The lengths are those that occur, in order. -/
theorem lengths_spec {r : Rtts} {msgs : List (Int × Rat)} (h : ByLength r msgs) :
    (lengths r).Pairwise (· < ·) ∧ ∀ k, k ∈ lengths r ↔ Occurs msgs k := by
  have hp := sortBy_perm intLe (r.map Prod.fst)
  refine ⟨?_, fun k => by rw [lengths, hp.mem_iff, h.2.1]⟩
  have hs := sorted_ints (r.map Prod.fst)
  have hn : (lengths r).Nodup := hp.nodup_iff.2 h.1
  refine (hs.and hn).imp ?_
  rintro a b ⟨h1, h2⟩
  omega

theorem sum_counts (msgs : List (Int × Rat)) (ks : List Int) (h : ks.Nodup) :
    (ks.map fun k => msgs.countP fun m => m.1 = k).sum = msgs.countP fun m => m.1 ∈ ks := by
  induction ks with
  | nil => simp
  | cons k ks ih =>
    rw [List.nodup_cons] at h
    rw [List.map_cons, List.sum_cons, ih h.2, ← countP_or]
    · apply List.countP_congr
      intro m _
      simp
    · intro m _
      simp only [decide_eq_true_eq, not_and]
      rintro rfl
      exact h.1

theorem total_groups {r : Rtts} {msgs : List (Int × Rat)} (h : ByLength r msgs) : total r = msgs.length := by
  have h1 : r.map (fun x => x.2.length) = (r.map Prod.fst).map fun k => msgs.countP fun m => m.1 = k := by
    rw [List.map_map]
    apply List.map_congr_left
    intro e he
    rw [h.2.2 e he, usecOf_length]
    rfl
  rw [total, h1, sum_counts msgs _ h.1, List.countP_eq_length]
  intro m hm
  simp only [decide_eq_true_eq]
  exact (h.2.1 m.1).2 ⟨m, hm, rfl⟩

/-- One more length: all messages up to it have been counted. -/
theorem upTo_step {msgs : List (Int × Rat)} {pre post : List Int} {L : Int}
    (hs : (pre ++ L :: post).Pairwise (· < ·)) (hc : ∀ k, k ∈ pre ++ L :: post ↔ Occurs msgs k) :
    (msgs.countP fun m => m.1 ∈ pre) + (usecOf msgs L).length = upTo msgs L ∧
    (msgs.countP fun m => m.1 ∈ pre ++ [L]) = upTo msgs L ∧
    (msgs.countP fun m => m.1 ∈ pre) = shorter msgs L := by
  rw [List.pairwise_append] at hs
  obtain ⟨_, s2, s3⟩ := hs
  rw [List.pairwise_cons] at s2
  have key : ∀ m ∈ msgs, (m.1 ∈ pre ↔ m.1 < L) := by
    intro m hm
    constructor
    · intro h; exact s3 _ h L (by simp)
    · intro h
      have := (hc m.1).2 ⟨m, hm, rfl⟩
      rcases List.mem_append.1 this with a | a
      · exact a
      · rcases List.mem_cons.1 a with a | a
        · omega
        · have := s2.1 _ a; omega
  have e2 : (msgs.countP fun m => m.1 ∈ pre ++ [L]) = upTo msgs L := by
    apply List.countP_congr
    intro m hm
    simp only [List.mem_append, List.mem_singleton, decide_eq_true_eq]
    rw [key m hm]
    omega
  refine ⟨?_, e2, ?_⟩
  · rw [usecOf_length, ← e2, ← countP_or]
    · apply List.countP_congr
      intro m _
      simp
    · intro m hm
      simp only [decide_eq_true_eq, not_and]
      intro h1 h2
      rw [key m hm] at h1
      omega
  · apply List.countP_congr
    intro m hm
    simp only [decide_eq_true_eq]
    exact key m hm

theorem bucketLoop_eq {r : Rtts} {msgs : List (Int × Rat)} (h : ByLength r msgs) (all : Nat) (post : List Int) :
    ∀ (pre : List Int) (cum : Nat), (pre ++ post).Pairwise (· < ·) → (∀ k, k ∈ pre ++ post ↔ Occurs msgs k) →
    cum = (msgs.countP fun m => m.1 ∈ pre) →
    bucketLoop r all cum post = post.map fun k => (k, (upTo msgs k : Rat) / (all : Rat)) := by
  induction post with
  | nil => intros; rfl
  | cons L post ih =>
    intro pre cum hs hc e
    obtain ⟨u1, u2, _⟩ := upTo_step hs hc
    have hL : Occurs msgs L := (hc L).1 (by simp)
    rw [bucketLoop, get_groups h hL]
    dsimp only [Option.getD]
    rw [e, u1, List.map_cons, ih (pre ++ [L]) _ (by simpa using hs) (by simpa using hc) u2.symm]

theorem buckets_eq {r : Rtts} {msgs : List (Int × Rat)} (h : ByLength r msgs) :
    buckets r = (lengths r).map fun k => (k, (upTo msgs k : Rat) / (msgs.length : Rat)) := by
  obtain ⟨h1, h2⟩ := lengths_spec h
  rw [buckets, total_groups h]
  exact bucketLoop_eq h _ _ [] 0 (by simpa using h1) (by simpa using h2) (by simp)

/-! ### Rows -/

theorem ratSorted (l : List Rat) : (sortBy ratLe l).Pairwise (· ≤ ·) := by
  have := sortBy_sorted (le := ratLe)
    (fun a b c h1 h2 => by
      simp only [ratLe, decide_eq_true_eq] at *
      exact Rat.le_trans h1 h2)
    (fun a b h => by
      simp only [ratLe, decide_eq_true_eq, decide_eq_false_iff_not] at *
      exact Rat.le_of_lt (Rat.not_le.1 h)) l
  exact this.imp (by intro a b h; simpa [ratLe] using h)

theorem rank_get (l : List Rat) {k : Nat} (hk : k < l.length) :
    ∃ v, (sortBy ratLe l)[k]? = some v ∧ HasRankRat l k v := by
  have hp := sortBy_perm ratLe l
  have hs := ratSorted l
  have hk' : k < (sortBy ratLe l).length := by rw [hp.length_eq]; exact hk
  refine ⟨(sortBy ratLe l)[k], List.getElem?_eq_getElem hk', hp.mem_iff.1 (List.getElem_mem hk'), ?_, ?_⟩
  · rw [← hp.countP_eq]
    generalize sortBy ratLe l = s at hs hk'
    have hd : (s.drop k).countP (fun x => decide (x < s[k])) = 0 := by
      apply List.countP_eq_zero.2
      intro x hx
      obtain ⟨i, hi, rfl⟩ := List.getElem_of_mem hx
      simp only [List.getElem_drop, decide_eq_true_eq, Rat.not_lt]
      by_cases e : i = 0
      · subst e; simp only [Nat.add_zero]; exact Rat.le_refl
      · exact List.pairwise_iff_getElem.1 hs k (k + i) hk' (by simp at hi; omega) (by omega)
    have he : s.countP (fun x => decide (x < s[k])) =
        (s.take k).countP (fun x => decide (x < s[k])) + (s.drop k).countP (fun x => decide (x < s[k])) := by
      rw [← List.countP_append, List.take_append_drop]
    have := List.countP_le_length (p := fun x => decide (x < s[k])) (l := s.take k)
    simp at this
    omega
  · rw [← hp.countP_eq]
    generalize sortBy ratLe l = s at hs hk'
    have ht : (s.take (k + 1)).countP (fun x => decide (x ≤ s[k])) = k + 1 := by
      rw [List.countP_eq_length.2]
      · simp; omega
      · intro x hx
        obtain ⟨i, hi, rfl⟩ := List.getElem_of_mem hx
        simp only [List.getElem_take, decide_eq_true_eq]
        simp at hi
        by_cases e : i = k
        · subst e; exact Rat.le_refl
        · exact List.pairwise_iff_getElem.1 hs i k (by omega) hk' (by omega)
    have : s.countP (fun x => decide (x ≤ s[k])) =
        (s.take (k + 1)).countP (fun x => decide (x ≤ s[k])) +
          (s.drop (k + 1)).countP (fun x => decide (x ≤ s[k])) := by
      rw [← List.countP_append, List.take_append_drop]
    omega

theorem close_right {msgs : List (Int × Rat)} {L : Int} (hL : Occurs msgs L) (next : Nat) :
    ∃ row, close { length := L, cumFrac := (upTo msgs L : Rat) / (msgs.length : Rat), next := next
                   rtts := usecOf msgs L, count := (usecOf msgs L).length } = .ok row ∧
      row.length = L ∧ RightRow msgs row := by
  have hp := usecOf_pos hL
  obtain ⟨a, a1, a2⟩ := rank_get (usecOf msgs L) (k := 0) hp
  obtain ⟨x, x1, x2⟩ := rank_get (usecOf msgs L) (k := (usecOf msgs L).length / 2) (by omega)
  obtain ⟨y, y1, y2⟩ := rank_get (usecOf msgs L) (k := (usecOf msgs L).length * 99 / 100) (by omega)
  obtain ⟨z, z1, z2⟩ := rank_get (usecOf msgs L) (k := (usecOf msgs L).length * 999 / 1000) (by omega)
  refine ⟨{ length := L, cumFrac := (upTo msgs L : Rat) / (msgs.length : Rat)
            count := (usecOf msgs L).length, min := a, p50 := x, p99 := y, p999 := z }, ?_, rfl,
    rfl, rfl, a2, x2, y2, z2⟩
  unfold close
  dsimp only
  rw [if_neg (by omega), a1, x1, y1, z1]

theorem digestLoop_right {r : Rtts} {msgs : List (Int × Rat)} (h : ByLength r msgs) (post : List Int) :
    ∀ (pre : List Int) (L : Int) (rows : List Row), (pre ++ L :: post).Pairwise (· < ·) →
    (∀ k, k ∈ pre ++ L :: post ↔ Occurs msgs k) → (∀ k, Occurs msgs k → k < 999999999) →
    ∃ new, digestLoop r ((pre ++ L :: post).map fun k => (k, (upTo msgs k : Rat) / (msgs.length : Rat)))
        (post ++ [999999999])
        { length := L, cumFrac := (upTo msgs L : Rat) / (msgs.length : Rat), next := pre.length + 1
          rtts := usecOf msgs L, count := (usecOf msgs L).length } rows = .ok (rows ++ new) ∧
      new.map (·.length) = L :: post ∧ ∀ row ∈ new, RightRow msgs row := by
  induction post with
  | nil =>
    intro pre L rows hs hc hb
    have hL : Occurs msgs L := (hc L).1 (by simp)
    obtain ⟨row, e, l, g⟩ := close_right hL (pre.length + 1)
    refine ⟨[row], ?_, by simp [l], by simpa using g⟩
    rw [List.nil_append, digestLoop, if_pos (hb L hL), e]
    simp [Outcome.bind]
  | cons K post ih =>
    intro pre L rows hs hc hb
    have hL : Occurs msgs L := (hc L).1 (by simp)
    have hK : Occurs msgs K := (hc K).1 (by simp)
    have hLK : L < K := (List.pairwise_cons.1 (List.pairwise_append.1 hs).2.1).1 K (by simp)
    obtain ⟨row, e, l, g⟩ := close_right hL (pre.length + 1)
    obtain ⟨new, i1, i2, i3⟩ := ih (pre ++ [L]) K (rows ++ [row]) (by simpa using hs) (by simpa using hc) hb
    refine ⟨row :: new, ?_, by simp [l, i2], by simpa using ⟨g, i3⟩⟩
    rw [List.cons_append, digestLoop, if_pos hLK, e]
    have : ((pre ++ L :: K :: post).map fun k => (k, (upTo msgs k : Rat) / (msgs.length : Rat)))[pre.length + 1]? =
        some (K, (upTo msgs K : Rat) / (msgs.length : Rat)) := by
      rw [List.getElem?_map, List.getElem?_append_right (by omega)]
      simp
    simp only [Outcome.bind]
    rw [this]
    dsimp only
    rw [get_groups h hK]
    dsimp only
    simpa [List.append_assoc] using i1

theorem digest_right {r : Rtts} {msgs : List (Int × Rat)} (h : ByLength r msgs) (h0 : msgs ≠ [])
    (hb : ∀ m ∈ msgs, m.1 < 999999999) :
    ∃ rows, digest r = .ok rows ∧ rows.map (·.length) = lengths r ∧ ∀ row ∈ rows, RightRow msgs row := by
  obtain ⟨h1, h2⟩ := lengths_spec h
  have hb' : ∀ k, Occurs msgs k → k < 999999999 := by
    rintro k ⟨m, hm, rfl⟩; exact hb m hm
  unfold digest
  rw [buckets_eq h]
  cases hl : lengths r with
  | nil =>
    obtain ⟨m, hm⟩ := List.exists_mem_of_ne_nil _ h0
    have := (h2 m.1).2 ⟨m, hm, rfl⟩
    rw [hl] at this
    cases this
  | cons L post =>
    rw [hl] at h1 h2
    have hL : Occurs msgs L := (h2 L).1 (by simp)
    obtain ⟨new, i1, i2, i3⟩ := digestLoop_right h post [] L [] h1 h2 hb'
    refine ⟨new, ?_, i2, i3⟩
    rw [List.map_cons]
    dsimp only
    rw [List.cons_append, digestLoop, if_neg (Int.lt_irrefl L), get_groups h hL]
    simpa using i1

/-! ### The axis -/

theorem position {all : Nat} (h : 0 < all) (k : Nat) : ((all * k : Nat) : Rat) / 10 / (all : Rat) = (k : Rat) / 10 := by
  have ha : (all : Rat) ≠ 0 := by
    intro e
    have := Rat.natCast_eq_zero_iff.1 e
    omega
  rw [Rat.natCast_mul, Rat.div_def, Rat.div_def, Rat.div_def, Rat.mul_comm (all : Rat), Rat.mul_assoc, Rat.mul_assoc,
    Rat.mul_comm (10 : Rat)⁻¹, ← Rat.mul_assoc (all : Rat), Rat.mul_inv_cancel _ ha, Rat.one_mul]

theorem tickLoop_eq {all c : Nat} (ha : 0 < all) (L : Int) (fuel : Nat) :
    ∀ tick, tick ≤ c * 10 / all + 1 → c * 10 + 1 ≤ fuel + tick →
    tickLoop all c L fuel tick =
      ((List.range' tick (c * 10 / all + 1 - tick)).map fun k => (((k : Nat) : Rat) / 10, L), c * 10 / all + 1) := by
  induction fuel with
  | zero =>
    intro tick h1 h2
    have : c * 10 / all ≤ c * 10 := Nat.div_le_self _ _
    have he : tick = c * 10 / all + 1 := by omega
    rw [tickLoop, ← he]
    simp
  | succ fuel ih =>
    intro tick h1 h2
    rw [tickLoop]
    have hiff : all * tick ≤ c * 10 ↔ tick ≤ c * 10 / all := by
      rw [Nat.le_div_iff_mul_le ha, Nat.mul_comm]
    split
    · next h =>
      rw [hiff] at h
      dsimp only
      rw [ih (tick + 1) (by omega) (by omega)]
      have : c * 10 / all + 1 - tick = (c * 10 / all + 1 - (tick + 1)) + 1 := by omega
      rw [this, List.range'_succ, List.map_cons, position ha]
    · next h =>
      rw [hiff] at h
      have he : tick = c * 10 / all + 1 := by omega
      rw [← he]
      simp

theorem axisLoop_right {r : Rtts} {msgs : List (Int × Rat)} (h : ByLength r msgs) (h0 : 0 < msgs.length)
    (post : List Int) : ∀ (pre : List Int) (cum tick : Nat), (pre ++ post).Pairwise (· < ·) →
    (∀ k, k ∈ pre ++ post ↔ Occurs msgs k) → cum = (msgs.countP fun m => m.1 ∈ pre) →
    tick ≤ cum * 10 / msgs.length + 1 →
    (post ≠ [] → tick + (axisLoop r msgs.length post cum tick).length = 11) ∧
    ∀ j, j < (axisLoop r msgs.length post cum tick).length → ∃ L ∈ post,
      (axisLoop r msgs.length post cum tick)[j]? = some (((tick + j : Nat) : Rat) / 10, L) ∧
      msgs.length * (tick + j) ≤ 10 * upTo msgs L ∧
      ∀ L' ∈ post, L' < L → 10 * upTo msgs L' < msgs.length * (tick + j) := by
  induction post with
  | nil => intro pre cum tick _ _ _ _; exact ⟨nofun, fun j hj => absurd hj (by simp [axisLoop])⟩
  | cons L post ih =>
    intro pre cum tick hs hc e ht
    obtain ⟨u1, u2, _⟩ := upTo_step hs hc
    have hL : Occurs msgs L := (hc L).1 (by simp)
    have hle : cum ≤ upTo msgs L := by rw [← u1, e]; omega
    have hmono : cum * 10 / msgs.length ≤ upTo msgs L * 10 / msgs.length :=
      Nat.div_le_div_right (by omega)
    rw [axisLoop, get_groups h hL]
    dsimp only [Option.getD]
    rw [e, u1]
    rw [tickLoop_eq h0 L _ tick (by omega) (by omega)]
    dsimp only
    obtain ⟨i1, i2⟩ := ih (pre ++ [L]) (upTo msgs L) (upTo msgs L * 10 / msgs.length + 1) (by simpa using hs)
      (by simpa using hc) u2.symm (Nat.le_refl _)
    generalize axisLoop r msgs.length post (upTo msgs L) (upTo msgs L * 10 / msgs.length + 1) = rest at i1 i2
    have hbig : 10 * upTo msgs L < msgs.length * (upTo msgs L * 10 / msgs.length + 1) := by
      rw [Nat.mul_comm 10]
      exact Nat.lt_mul_div_succ _ h0
    constructor
    · intro _
      rw [List.length_append, List.length_map, List.length_range']
      by_cases hp : post = []
      · subst hp
        have hu : upTo msgs L = msgs.length := by
          rw [← u2, List.countP_eq_length]
          intro m hm
          simp only [decide_eq_true_eq]
          exact (hc m.1).2 ⟨m, hm, rfl⟩
        have hr : rest.length = 0 := by
          rcases Nat.eq_zero_or_pos rest.length with h | h
          · exact h
          · obtain ⟨_, hm, _⟩ := i2 0 h
            cases hm
        have : upTo msgs L * 10 / msgs.length = 10 := by
          rw [hu, Nat.mul_div_cancel_left _ h0]
        omega
      · have := i1 hp
        omega
    · intro j hj
      rw [List.length_append, List.length_map, List.length_range'] at hj
      by_cases hlt : j < upTo msgs L * 10 / msgs.length + 1 - tick
      · refine ⟨L, by simp, ?_, ?_, ?_⟩
        · rw [List.getElem?_append_left (by simpa using hlt), List.getElem?_map, List.getElem?_range' hlt]
          simp
        · have : tick + j ≤ upTo msgs L * 10 / msgs.length := by omega
          rw [Nat.le_div_iff_mul_le h0] at this
          rw [Nat.mul_comm, Nat.mul_comm 10]
          exact this
        · intro L' hm hl
          rcases List.mem_cons.1 hm with rfl | hm
          · omega
          · have := (List.pairwise_cons.1 (List.pairwise_append.1 hs).2.1).1 _ hm
            omega
      · obtain ⟨K, k1, k2, k3, k4⟩ := i2 (j - (upTo msgs L * 10 / msgs.length + 1 - tick)) (by omega)
        have hsum : upTo msgs L * 10 / msgs.length + 1 + (j - (upTo msgs L * 10 / msgs.length + 1 - tick)) =
            tick + j := by omega
        rw [hsum] at k2 k3 k4
        refine ⟨K, by simp [k1], ?_, k3, ?_⟩
        · rw [List.getElem?_append_right (by simpa using hlt)]
          simpa using k2
        · intro L' hm hl
          rcases List.mem_cons.1 hm with rfl | hm
          · exact Nat.lt_of_lt_of_le hbig (Nat.mul_le_mul_left _ (by omega))
          · exact k4 L' hm hl

/-! ### Curves -/

theorem stepLoop_spec (pts : List (Rat × Rat)) : ∀ (x0 y0 : Rat),
    (stepLoop false x0 y0 pts).length = 2 * pts.length ∧
    ∀ i p, pts[i]? = some p →
      (stepLoop false x0 y0 pts)[2 * i]? = some ((((x0, y0) :: pts)[i]?.getD p).1, p.2) ∧
      (stepLoop false x0 y0 pts)[2 * i + 1]? = some p := by
  induction pts with
  | nil => intro x0 y0; exact ⟨rfl, fun i p h => by simp at h⟩
  | cons q pts ih =>
    intro x0 y0
    obtain ⟨x, y⟩ := q
    obtain ⟨i1, i2⟩ := ih x y
    rw [stepLoop, if_neg (by simp)]
    refine ⟨by simp [i1]; omega, ?_⟩
    intro i p h
    cases i with
    | zero =>
      simp only [List.getElem?_cons_zero, Option.some.injEq] at h
      subst h
      simp
    | succ i =>
      rw [List.getElem?_cons_succ] at h
      obtain ⟨j1, j2⟩ := i2 i p h
      have e1 : 2 * (i + 1) = 2 * i + 2 := by omega
      rw [e1]
      simp only [List.getElem?_cons_succ]
      exact ⟨j1, j2⟩

end Distbench.Digest
