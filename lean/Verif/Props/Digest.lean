import Verif.Lemmas.Digest

/-! Properties of the latency reports. -/

namespace Distbench.Digest
open Distbench.Spec
open Analysis (Formatter Test Sample overall)

/-! ### C281 -/

/-- A file of sizes and latencies without a header is read back with the same messages, grouped by their length;
latencies are in microseconds.  So is that of the overall summary of a result: it has the messages of all
samples of all tests that count. -/
theorem C281_read {py : Python} (hf : Faithful py) (rows : List (Int × Int)) :
    ∃ rtts, readRtts py (homaFile py true rows) = .ok rtts ∧
      ByLength rtts (rows.map fun r => (r.1, (r.2 : Rat) / 1000)) := by
  obtain ⟨r, h1, h2⟩ := read_rows hf rows [] [] ⟨by simp, by simp [Occurs], by simp⟩
  exact ⟨r, by simpa [readRtts, homaFile] using h1, by simpa using h2⟩

theorem usecOf_perm {a b : List (Int × Rat)} (h : a.Perm b) (L : Int) : (usecOf a L).Perm (usecOf b L) :=
  (h.filter _).map _

theorem C281_summary {py : Python} (hf : Faithful py) (f : Formatter) (ht : f.trace = false) (tests : List Test)
    (hu : ∀ t ∈ tests, KeysUnique t) :
    ∃ rtts msgs, readRtts py (homaFile py true (f.rows (overall tests))) = .ok rtts ∧ ByLength rtts msgs ∧
      msgs.Perm ((kept f.warmups (tests.flatMap allSamples)).map fun s => (s.size, (s.latency : Rat) / 1000)) := by
  obtain ⟨r, h1, h2⟩ := C281_read hf (f.rows (overall tests))
  refine ⟨r, _, h1, h2, ?_⟩
  have := ((Analysis.C212_overall f ht tests hu).1).map fun r : Int × Int => (r.1, (r.2 : Rat) / 1000)
  simpa [sizesAndLatencies, Function.comp_def] using this

/-- With a header, the file is not read; nor is one with an empty line. -/
theorem C281_header {py : Python} (hh : py.toInt "Request_size".toList = none) (rows : List (Int × Int)) :
    readRtts py (homaFile py false rows) = .error "ValueError" ∧
    readRtts py ('\n' :: homaFile py true rows) = .error "IndexError" := by
  constructor
  · unfold readRtts homaFile
    rw [if_neg (by simp)]
    have h : ∀ t : Str, Analysis.pad15 "Request_size".toList ++ ' ' :: "Latency_us".toList ++ ['\n'] ++ t =
        (Analysis.pad15 "Request_size".toList ++ ' ' :: "Latency_us".toList) ++ '\n' :: t := by
      intro t; simp
    rw [h, fileLines_line (by decide), readLines, readLine,
      splitWords_line (by decide) (by decide) (by decide) (by decide)]
    dsimp only
    rw [if_neg (by decide), hh]
    rfl
  · rfl

/-- A Python that writes numbers as fractions. -/
def samplePython : Python where
  toInt := number
  toFloat := fun w => (number (w.takeWhile (· ≠ '/'))).bind fun (n : Int) =>
    (number ((w.dropWhile (· ≠ '/')).drop 1)).map fun (d : Int) => Rat.divInt n d
  repr := fun x => Services.showInt x.num ++ '/' :: Services.showInt x.den
where
  number (w : Str) : Option Int :=
    match w with
    | '-' :: r => if r.all Services.isCDigit then some (-(Services.digitsValue 0 r : Int)) else none
    | _ => if w.all Services.isCDigit then some (Services.digitsValue 0 w) else none

theorem number_show (n : Int) : samplePython.number (Services.showInt n) = some n := by
  have hall : ∀ k, (Services.digits k).all Services.isCDigit = true := fun k =>
    List.all_eq_true.2 (Services.digits_isDigit k)
  unfold Services.showInt
  split
  · next h =>
    show (if _ then _ else _) = _
    rw [if_pos (hall _), Services.digitsValue_digits]
    exact congrArg some (by omega)
  · next h =>
    have h1 : ∀ r, Services.digits n.natAbs ≠ '-' :: r := by
      intro r e
      have := Services.digits_isDigit n.natAbs '-' (by rw [e]; simp)
      exact absurd this (by decide)
    unfold samplePython.number
    split
    · next r e => exact absurd e (h1 r)
    · rw [if_pos (hall _), Services.digitsValue_digits]
      exact congrArg some (by omega)

theorem samplePython_faithful : Faithful samplePython where
  toInt := number_show
  toFloat := by
    intro x
    have hs : ∀ c ∈ Services.showInt x.num, (c ≠ '/') = true := by
      intro c hc
      have := Analysis.showInt_chars x.num c hc
      simp only [ne_eq, eq_iff_iff, iff_true]
      rintro rfl
      exact absurd this (by decide)
    have ht : ∀ (a b : Str), (∀ c ∈ a, (c ≠ '/') = true) → (a ++ '/' :: b).takeWhile (· ≠ '/') = a ∧
        (a ++ '/' :: b).dropWhile (· ≠ '/') = '/' :: b := by
      intro a b ha
      induction a with
      | nil => simp
      | cons c a ih =>
        have hc : c ≠ '/' := by simpa using ha c (by simp)
        obtain ⟨i1, i2⟩ := ih fun d hd => ha d (by simp [hd])
        rw [List.cons_append, List.takeWhile_cons_of_pos (by simpa using hc),
          List.dropWhile_cons_of_pos (by simpa using hc), i1, i2]
        exact ⟨rfl, rfl⟩
    obtain ⟨t1, t2⟩ := ht _ (Services.showInt x.den) hs
    show ((samplePython.number _).bind _) = _
    rw [show samplePython.repr x = Services.showInt x.num ++ '/' :: Services.showInt x.den from rfl, t1, t2,
      number_show]
    show ((samplePython.number (Services.showInt x.den)).map _) = _
    rw [number_show]
    exact congrArg some (Rat.num_divInt_den x)
  word := by
    intro x
    refine ⟨by simp [samplePython], ?_⟩
    intro c hc
    rcases List.mem_append.1 hc with h | h
    · exact showInt_large _ c h
    · rcases List.mem_cons.1 h with rfl | h
      · decide
      · exact showInt_large _ c h

example : ∃ rtts, readRtts samplePython (homaFile samplePython true [(64, 2500), (8, 700), (64, 1000)]) = .ok rtts ∧
    ByLength rtts [(64, 5 / 2), (8, 7 / 10), (64, 1)] := by
  obtain ⟨r, h1, h2⟩ := C281_read samplePython_faithful [(64, 2500), (8, 700), (64, 1000)]
  refine ⟨r, h1, ?_⟩
  have : ([(64, 2500), (8, 700), (64, 1000)].map fun r : Int × Int => (r.1, (r.2 : Rat) / 1000)) =
      [(64, 5 / 2), (8, 7 / 10), (64, 1)] := by decide +kernel
  rwa [this] at h2

example : ∃ rtts msgs, readRtts samplePython (homaFile samplePython true
      (Formatter.rows {} (overall [Analysis.sampleTest]))) = .ok rtts ∧ ByLength rtts msgs ∧
    msgs.Perm [(8, 30 / 1000), (16, 10 / 1000)] := by
  obtain ⟨r, m, h1, h2, h3⟩ := C281_summary samplePython_faithful {} rfl [Analysis.sampleTest]
    (by simpa using Analysis.sampleTest_unique)
  exact ⟨r, m, h1, h2, h3.trans (by decide +kernel)⟩

example : readRtts samplePython (homaFile samplePython false [(64, 2500)]) = .error "ValueError" :=
  (C281_header (by decide) _).1

/-! ### C282 -/

/-- Missing from the full property: lengths from 999999999 on.  The digest has one row for each length that occurs,
in ascending order, with the number of messages of the length, the share of messages no longer than this, and
the smallest, the median and the 99 and 99.9 percent values of the latencies of the length. -/
theorem C282_digest_partial {rtts : Rtts} {msgs : List (Int × Rat)} (h : ByLength rtts msgs) (h0 : msgs ≠ [])
    (hb : ∀ m ∈ msgs, m.1 < 999999999) :
    ∃ rows, digest rtts = .ok rows ∧ (rows.map (·.length)).Pairwise (· < ·) ∧
      (∀ length, length ∈ rows.map (·.length) ↔ Occurs msgs length) ∧ ∀ row ∈ rows, RightRow msgs row := by
  obtain ⟨rows, h1, h2, h3⟩ := digest_right h h0 hb
  obtain ⟨l1, l2⟩ := lengths_spec h
  exact ⟨rows, h1, by rw [h2]; exact l1, by rw [h2]; exact l2, h3⟩

/-- Three messages of two lengths. -/
def sampleRtts : Rtts := [(64, [5 / 2, 1]), (8, [7 / 10])]

/-- The messages of `sampleRtts`. -/
def sampleMsgs : List (Int × Rat) := [(64, 5 / 2), (8, 7 / 10), (64, 1)]

theorem sample_groups : ByLength sampleRtts sampleMsgs := by
  refine ⟨by decide, ?_, by decide +kernel⟩
  intro k
  constructor
  · intro hk
    have hk : k = 64 ∨ k = 8 := by simpa [sampleRtts] using hk
    rcases hk with rfl | rfl
    · exact ⟨(64, 5 / 2), by simp [sampleMsgs], rfl⟩
    · exact ⟨(8, 7 / 10), by simp [sampleMsgs], rfl⟩
  · rintro ⟨m, hm, rfl⟩
    revert m
    decide +kernel

example : ∃ rows, digest sampleRtts = .ok rows ∧ (rows.map (·.length)).Pairwise (· < ·) ∧
    (∀ length, length ∈ rows.map (·.length) ↔ Occurs sampleMsgs length) ∧
    ∀ row ∈ rows, RightRow sampleMsgs row :=
  C282_digest_partial sample_groups (by decide) (by decide)

example : digest sampleRtts = .ok
    [{ length := 8, cumFrac := 1 / 3, count := 1, min := 7 / 10, p50 := 7 / 10, p99 := 7 / 10, p999 := 7 / 10 },
     { length := 64, cumFrac := 1, count := 2, min := 1, p50 := 5 / 2, p99 := 5 / 2, p999 := 5 / 2 }] := by
  decide +kernel

/-- The property fails for messages of 999999999 bytes, for which there is no row, and longer ones, with which
there is no digest. -/
theorem C282_long_negation : ByLength [(999999999, [5])] [(999999999, 5)] ∧ digest [(999999999, [5])] = .ok [] ∧
    ByLength [(1000000000, [5])] [(1000000000, 5)] ∧ digest [(1000000000, [5])] = .error "KeyError" := by
  have hg : ∀ n : Int, ByLength [(n, [5])] [(n, 5)] := by
    intro n
    refine ⟨by simp, fun k => ⟨fun hk => ⟨(n, 5), by simp, ?_⟩, ?_⟩, by simp [usecOf]⟩
    · exact (by simpa using hk : k = n).symm
    · rintro ⟨m, hm, rfl⟩
      rw [List.mem_singleton] at hm
      simp [hm]
  exact ⟨hg _, by decide +kernel, hg _, by decide +kernel⟩

/-! ### C283 -/

/-- Missing from the full property: lengths from 999999999 on.  The axis of a plot has eleven marks, one for each
tenth of the messages; the mark for `k` tenths is at that share, and is labelled with the smallest length
that so many messages do not exceed. -/
theorem C283_axis_partial {rtts : Rtts} {msgs : List (Int × Rat)} (h : ByLength rtts msgs) (h0 : msgs ≠ [])
    (hb : ∀ m ∈ msgs, m.1 < 999999999) :
    ∃ marks, axisLabels rtts = .ok marks ∧ marks.length = 11 ∧
      ∀ k : Nat, k < 11 → ∃ length, marks[k]? = some ((k : Rat) / 10, length) ∧ Occurs msgs length ∧
        msgs.length * k ≤ 10 * upTo msgs length ∧
        ∀ other, Occurs msgs other → other < length → 10 * upTo msgs other < msgs.length * k := by
  obtain ⟨rows, h1, _, _⟩ := digest_right h h0 hb
  obtain ⟨l1, l2⟩ := lengths_spec h
  have hpos : 0 < msgs.length := List.length_pos_iff.2 h0
  obtain ⟨a1, a2⟩ := axisLoop_right h hpos (lengths rtts) [] 0 0 (by simpa using l1) (by simpa using l2)
    (by simp) (Nat.zero_le _)
  have hne : lengths rtts ≠ [] := by
    obtain ⟨m, hm⟩ := List.exists_mem_of_ne_nil _ h0
    exact List.ne_nil_of_mem ((l2 m.1).2 ⟨m, hm, rfl⟩)
  have hlen := a1 hne
  rw [Nat.zero_add] at hlen
  refine ⟨_, ?_, hlen, ?_⟩
  · unfold axisLabels
    rw [h1, total_groups h]
    simp only [Outcome.bind]
    rw [if_neg (by omega)]
  · intro k hk
    obtain ⟨L, b1, b2, b3, b4⟩ := a2 k (by omega)
    rw [Nat.zero_add] at b2 b3 b4
    exact ⟨L, b2, (l2 L).1 b1, b3, fun o ho => b4 o ((l2 o).2 ho)⟩

example : axisLabels sampleRtts = .ok [(0, 8), (1 / 10, 8), (2 / 10, 8), (3 / 10, 8), (4 / 10, 64), (5 / 10, 64),
    (6 / 10, 64), (7 / 10, 64), (8 / 10, 64), (9 / 10, 64), (1, 64)] := by decide +kernel

example : ∃ marks, axisLabels sampleRtts = .ok marks ∧ marks.length = 11 := by
  obtain ⟨m, h1, h2, _⟩ := C283_axis_partial sample_groups (by decide) (by decide)
  exact ⟨m, h1, h2⟩

/-- The property fails for messages of more than 999999999 bytes: there are no marks. -/
theorem C283_long_negation : ByLength [(1000000000, [5])] [(1000000000, 5)] ∧
    axisLabels [(1000000000, [5])] = .error "KeyError" :=
  ⟨C282_long_negation.2.2.1, by decide +kernel⟩

/-! ### C284 -/

theorem mapM_some {α β : Type} {f : α → Option β} {g : α → β} {l : List α} (h : ∀ a ∈ l, f a = some (g a)) :
    l.mapM f = some (l.map g) := by
  induction l with
  | nil => rfl
  | cons a l ih =>
    rw [List.mapM_cons, h a (by simp), ih fun b hb => h b (by simp [hb])]
    rfl

/-- Missing from the full property: lengths from 999999999 on.  A curve is a staircase with a step for each length
that occurs, in ascending order: from the share of shorter messages to the share of messages no longer than
this, at the height of the percentile of the latencies of the length. -/
theorem C284_curve_partial {rtts : Rtts} {msgs : List (Int × Rat)} (h : ByLength rtts msgs) (h0 : msgs ≠ [])
    (hb : ∀ m ∈ msgs, m.1 < 999999999) {name : String} {rank : Nat → Nat} (hc : (name, rank) ∈ curves) :
    ∃ (ls : List Int) (points : List (Rat × Rat)), plotRtts rtts name = .ok points ∧
      ls.Pairwise (· < ·) ∧ (∀ length, length ∈ ls ↔ Occurs msgs length) ∧
      points.length = 2 * ls.length ∧
      ∀ i (length : Int), ls[i]? = some length → ∃ y,
        HasRankRat (usecOf msgs length) (rank (usecOf msgs length).length) y ∧
        points[2 * i]? = some ((shorter msgs length : Rat) / (msgs.length : Rat), y) ∧
        points[2 * i + 1]? = some ((upTo msgs length : Rat) / (msgs.length : Rat), y) := by
  obtain ⟨rows, h1, h2, h3⟩ := digest_right h h0 hb
  obtain ⟨l1, l2⟩ := lengths_spec h
  -- what is drawn of a row
  obtain ⟨g, hg, hr⟩ : ∃ g : Row → Rat, (∀ r, select name r = some (g r)) ∧
      ∀ r, RightRow msgs r → HasRankRat (usecOf msgs r.length) (rank (usecOf msgs r.length).length) (g r) := by
    simp only [curves, List.mem_cons, Prod.mk.injEq, List.not_mem_nil, or_false] at hc
    rcases hc with ⟨rfl, rfl⟩ | ⟨rfl, rfl⟩ | ⟨rfl, rfl⟩ | ⟨rfl, rfl⟩
    · exact ⟨(·.min), fun _ => rfl, fun r hr => hr.min⟩
    · exact ⟨(·.p50), fun _ => rfl, fun r hr => by have := hr.p50; rw [hr.count] at this; exact this⟩
    · exact ⟨(·.p99), fun _ => rfl, fun r hr => by have := hr.p99; rw [hr.count] at this; exact this⟩
    · exact ⟨(·.p999), fun _ => rfl, fun r hr => by have := hr.p999; rw [hr.count] at this; exact this⟩
  have hm : rows.mapM (fun r => (select name r).map fun y => (r.cumFrac, y)) =
      some (rows.map fun r => (r.cumFrac, g r)) := mapM_some fun r _ => by rw [hg]; rfl
  have hplot : plotRtts rtts name = match rows with
      | [] => .error "IndexError"
      | r :: rest => .ok ((0, g r) :: (r.cumFrac, g r) :: stepLoop false r.cumFrac (g r)
          (rest.map fun r => (r.cumFrac, g r))) := by
    unfold plotRtts
    rw [h1]
    simp only [Outcome.bind]
    rw [hm]
    cases rows with
    | nil => rfl
    | cons r rest => rfl
  cases hrows : rows with
  | nil =>
    rw [hrows] at h2
    obtain ⟨m, hm⟩ := List.exists_mem_of_ne_nil _ h0
    have := (l2 m.1).2 ⟨m, hm, rfl⟩
    rw [← h2] at this
    cases this
  | cons r rest =>
    rw [hrows] at hplot h2 h3
    refine ⟨lengths rtts, _, hplot, l1, l2, ?_, ?_⟩
    · rw [← h2]
      simp [(stepLoop_spec _ _ _).1]
      omega
    · intro i L hi
      have hsplit : lengths rtts = (lengths rtts).take i ++ L :: (lengths rtts).drop (i + 1) := by
        obtain ⟨hlt, e⟩ := List.getElem?_eq_some_iff.1 hi
        rw [← e, List.getElem_cons_drop, List.take_append_drop]
      have hsorted := l1
      have hcover := l2
      rw [hsplit] at hsorted hcover
      obtain ⟨_, _, u3⟩ := upTo_step hsorted hcover
      rw [← h2] at hi
      cases i with
      | zero =>
        simp only [List.map_cons, List.getElem?_cons_zero, Option.some.injEq] at hi
        subst hi
        have hr0 := h3 r (by simp)
        refine ⟨g r, hr r hr0, ?_, ?_⟩
        · rw [← u3]
          simp
          rw [Rat.div_def, Rat.zero_mul]
        · simp [hr0.cumFrac]
      | succ i =>
        rw [List.map_cons, List.getElem?_cons_succ, List.getElem?_map] at hi
        obtain ⟨q, hq, rfl⟩ : ∃ q, rest[i]? = some q ∧ q.length = L := by
          cases hq : rest[i]? with
          | none => simp [hq] at hi
          | some q => exact ⟨q, rfl, by simpa [hq] using hi⟩
        have hq0 := h3 q (by simp [List.mem_of_getElem? hq])
        -- the row before
        obtain ⟨b, hb1⟩ : ∃ b, (r :: rest)[i]? = some b := by
          have := (List.getElem?_eq_some_iff.1 hq).1
          exact ⟨(r :: rest)[i]'(by simp; omega), List.getElem?_eq_getElem _⟩
        have hb0 := h3 b (List.mem_of_getElem? hb1)
        have hbl : (lengths rtts)[i]? = some b.length := by rw [← h2, List.getElem?_map, hb1]; rfl
        have hshort : shorter msgs q.length = upTo msgs b.length := by
          have hs' : lengths rtts = (lengths rtts).take i ++ b.length :: (lengths rtts).drop (i + 1) := by
            obtain ⟨hlt, e⟩ := List.getElem?_eq_some_iff.1 hbl
            rw [← e, List.getElem_cons_drop, List.take_append_drop]
          have c1 := l1
          have c2 := l2
          rw [hs'] at c1 c2
          obtain ⟨_, v2, _⟩ := upTo_step c1 c2
          rw [← u3, ← v2, List.take_succ, hbl]
          rfl
        obtain ⟨s1, s2⟩ := (stepLoop_spec (rest.map fun r => (r.cumFrac, g r)) r.cumFrac (g r)).2 i (q.cumFrac, g q)
          (by rw [List.getElem?_map, hq]; rfl)
        refine ⟨g q, hr q hq0, ?_, ?_⟩
        · rw [show 2 * (i + 1) = 2 * i + 1 + 1 by omega, List.getElem?_cons_succ, List.getElem?_cons_succ, s1, hshort,
            ← hb0.cumFrac]
          have : ((r.cumFrac, g r) :: rest.map fun r => (r.cumFrac, g r))[i]? = some (b.cumFrac, g b) := by
            rw [← List.map_cons (f := fun r : Row => (r.cumFrac, g r)), List.getElem?_map, hb1]; rfl
          rw [this]
          rfl
        · rw [show 2 * (i + 1) + 1 = 2 * i + 1 + 1 + 1 by omega, List.getElem?_cons_succ, List.getElem?_cons_succ, s2,
            hq0.cumFrac]

/-- No other curve is drawn. -/
theorem C284_selector {rtts : Rtts} {rows : List Row} (h : digest rtts = .ok rows) (h0 : rows ≠ []) {name : String}
    (hn : ∀ rank, (name, rank) ∉ curves) : plotRtts rtts name = .error "Bad percentile selector" := by
  have hs : ∀ r, select name r = none := by
    intro r
    have h1 : name ≠ "min" := fun e => hn (fun _ => 0) (by simp [curves, e])
    have h2 : name ≠ "p50" := fun e => hn (fun n => n / 2) (by simp [curves, e])
    have h3 : name ≠ "p99" := fun e => hn (fun n => n * 99 / 100) (by simp [curves, e])
    have h4 : name ≠ "p999" := fun e => hn (fun n => n * 999 / 1000) (by simp [curves, e])
    rw [select, if_neg h1, if_neg h2, if_neg h3, if_neg h4]
  unfold plotRtts
  rw [h]
  simp only [Outcome.bind]
  cases rows with
  | nil => exact absurd rfl h0
  | cons r rest =>
    rw [List.mapM_cons, hs]
    rfl

example : plotRtts sampleRtts "p50" = .ok [(0, 7 / 10), (1 / 3, 7 / 10), (1 / 3, 5 / 2), (1, 5 / 2)] := by
  decide +kernel

example : ∃ (ls : List Int) (points : List (Rat × Rat)), plotRtts sampleRtts "p99" = .ok points ∧ ls.Pairwise (· < ·) ∧
    (∀ length, length ∈ ls ↔ Occurs sampleMsgs length) ∧ points.length = 2 * ls.length := by
  obtain ⟨ls, ps, h1, h2, h3, h4, _⟩ := C284_curve_partial sample_groups (by decide) (by decide)
    (name := "p99") (rank := fun n => n * 99 / 100) (by simp [curves])
  exact ⟨ls, ps, h1, h2, h3, h4⟩

/-- The property fails for messages of 999999999 bytes and more: there is no curve. -/
theorem C284_long_negation : ByLength [(999999999, [5])] [(999999999, 5)] ∧
    plotRtts [(999999999, [5])] "p99" = .error "IndexError" :=
  ⟨C282_long_negation.1, by decide +kernel⟩

end Distbench.Digest
