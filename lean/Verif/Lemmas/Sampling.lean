import Verif.Spec.Sampling

/-! Invariants of the dictionary and of sample recording. -/

namespace Distbench.Sampling
open Spec

/-! ### dictionary -/

structure DictOk (d : Dictionary) : Prop where
  zero : d.contents[0]? = some []
  fwd : ∀ t i, d.map.lookup t = some i → d.contents[i]? = some t
  bwd : ∀ (i : Nat) t, d.contents[i]? = some t → d.map.lookup t = some i

theorem dictOk_empty : DictOk .empty := by
  refine ⟨rfl, ?_, ?_⟩
  · intro t i h
    simp only [Dictionary.empty, List.lookup_cons, List.lookup_nil] at h
    split at h
    · rename_i hx
      injection h with h
      subst h
      simp only [beq_iff_eq] at hx
      rw [hx]; rfl
    · simp at h
  · intro i t h
    match i with
    | 0 =>
      simp only [Dictionary.empty, List.getElem?_cons_zero, Option.some.injEq] at h
      rw [← h]; rfl
    | n + 1 => simp [Dictionary.empty] at h

theorem getIndex_prefix (d : Dictionary) (t : Str) :
    ∃ rest, (d.getIndex t).1.contents = d.contents ++ rest := by
  unfold Dictionary.getIndex
  split
  · exact ⟨[], by simp⟩
  · exact ⟨[t], rfl⟩

theorem getIndex_value {d : Dictionary} (h : DictOk d) (t : Str) :
    (d.getIndex t).1.contents[(d.getIndex t).2]? = some t := by
  unfold Dictionary.getIndex
  split
  · rename_i i hi
    exact h.fwd t i hi
  · simp

theorem dictOk_getIndex {d : Dictionary} (h : DictOk d) (t : Str) : DictOk (d.getIndex t).1 := by
  unfold Dictionary.getIndex
  split
  · exact h
  · rename_i hn
    refine ⟨?_, ?_, ?_⟩
    · have := h.zero
      show (d.contents ++ [t])[0]? = some []
      rw [List.getElem?_append_left (by
        rcases Nat.lt_or_ge 0 d.contents.length with h' | h'
        · exact h'
        · rw [List.getElem?_eq_none h'] at this; simp at this)]
      exact this
    · intro t' i hl
      show (d.contents ++ [t])[i]? = some t'
      simp only [List.lookup_cons] at hl
      split at hl
      · rename_i hx
        injection hl with hl
        simp only [beq_iff_eq] at hx
        rw [hx, ← hl]; simp
      · have := h.fwd t' i hl
        rw [List.getElem?_append_left]
        · exact this
        · rcases Nat.lt_or_ge i d.contents.length with h' | h'
          · exact h'
          · rw [List.getElem?_eq_none h'] at this; simp at this
    · intro i t' hc
      have hc : (d.contents ++ [t])[i]? = some t' := hc
      show List.lookup t' ((t, d.contents.length) :: d.map) = some i
      rw [List.lookup_cons]
      rcases Nat.lt_or_ge i d.contents.length with h' | h'
      · rw [List.getElem?_append_left h'] at hc
        have := h.bwd i t' hc
        split
        · rename_i hx
          simp only [beq_iff_eq] at hx
          rw [hx] at this
          rw [this] at hn; simp at hn
        · exact this
      · rw [List.getElem?_append_right h'] at hc
        have hi : i - d.contents.length = 0 := by
          rcases Nat.eq_zero_or_pos (i - d.contents.length) with h | h
          · exact h
          · rw [List.getElem?_eq_none (by simp; omega)] at hc; simp at hc
        rw [hi] at hc
        simp only [List.getElem?_cons_zero, Option.some.injEq] at hc
        have hb : (t' == t) = true := by simp [hc]
        rw [hb]
        simp only [Option.some.injEq]
        omega

theorem dictOk_foldl (texts : List Str) : ∀ {d : Dictionary}, DictOk d →
    DictOk (texts.foldl (fun d t => (d.getIndex t).1) d) := by
  induction texts with
  | nil => intro d h; exact h
  | cons t r ih => intro d h; exact ih (dictOk_getIndex h t)

theorem foldl_prefix (texts : List Str) : ∀ d : Dictionary, ∃ rest,
    (texts.foldl (fun d t => (d.getIndex t).1) d).contents = d.contents ++ rest := by
  induction texts with
  | nil => intro d; exact ⟨[], by simp⟩
  | cons t r ih =>
    intro d
    obtain ⟨r1, h1⟩ := getIndex_prefix d t
    obtain ⟨r2, h2⟩ := ih (d.getIndex t).1
    exact ⟨r1 ++ r2, by rw [List.foldl_cons, h2, h1, List.append_assoc]⟩

/-! ### packing -/

theorem describes_mono {c : List Str} {r : Rpc} {k : Key} {s : Sample} (rest : List Str)
    (h : Describes c r k s) : Describes (c ++ rest) r k s := by
  obtain ⟨h1, h2, h3, h4, h5, h6, h7, h8, h9, h10, h11, h12⟩ := h
  refine ⟨h1, h2, h3, h4, h5, h6, h7, h8, h9, h10, h11, ?_⟩
  rw [List.getElem?_append_left]
  · exact h12
  · rcases Nat.lt_or_ge (s.errorIndex.getD 0) c.length with h' | h'
    · exact h'
    · rw [List.getElem?_eq_none h'] at h12; simp at h12

theorem pack_ok {d : Dictionary} (hd : DictOk d) (n : Nat) (r : Rpc) :
    DictOk (pack d n r).1 ∧ (∃ rest, (pack d n r).1.contents = d.contents ++ rest) ∧
    (pack d n r).2.sampleNumber = n ∧
    Describes (pack d n r).1.contents r (unpack (pack d n r).2).1 (unpack (pack d n r).2).2 := by
  have hw : ∀ x : Int, (if x ≠ 0 then some x else none).getD 0 = x := by
    intro x; split
    · rfl
    · rename_i h; simp at h; simp [h]
  have he : ∀ x : Nat, (if x ≠ 0 then some x else none).getD 0 = x := by
    intro x; split
    · rfl
    · rename_i h; simp at h; simp [h]
  have hb : ∀ x : Bool, (if x then some true else none).getD false = x := by
    intro x; cases x <;> rfl
  unfold pack
  by_cases hne : r.error ≠ []
  · simp only [if_pos hne]
    refine ⟨dictOk_getIndex hd _, getIndex_prefix d _, trivial, ?_⟩
    refine ⟨rfl, rfl, rfl, rfl, rfl, rfl, rfl, rfl, ?_, rfl, hb _, ?_⟩
    · simp only [unpack]
      rw [hw]
      cases r.priorStart <;> rfl
    · simp only [unpack]
      rw [he]
      exact getIndex_value hd _
  · simp only [if_neg hne]
    refine ⟨hd, ⟨[], by simp⟩, trivial, ?_⟩
    refine ⟨rfl, rfl, rfl, rfl, rfl, rfl, rfl, rfl, ?_, rfl, hb _, ?_⟩
    · simp only [unpack]
      rw [hw]
      cases r.priorStart <;> rfl
    · simp only [unpack]
      rw [he]
      have : r.error = [] := by simpa using hne
      rw [this]; exact hd.zero

theorem direct_ok {d : Dictionary} (hd : DictOk d) (r : Rpc) :
    DictOk (direct d r).1 ∧ (∃ rest, (direct d r).1.contents = d.contents ++ rest) ∧
    Describes (direct d r).1.contents r (direct d r).2.1 (direct d r).2.2 := by
  have hb : ∀ x : Bool, (if x then some true else none).getD false = x := by
    intro x; cases x <;> rfl
  unfold direct
  by_cases hne : r.error ≠ []
  · simp only [if_pos hne]
    refine ⟨dictOk_getIndex hd _, getIndex_prefix d _, ?_⟩
    refine ⟨rfl, rfl, rfl, rfl, rfl, rfl, rfl, rfl, ?_, rfl, hb _, ?_⟩
    · cases r.priorStart <;> rfl
    · exact getIndex_value hd _
  · simp only [if_neg hne]
    refine ⟨hd, ⟨[], by simp⟩, ?_⟩
    refine ⟨rfl, rfl, rfl, rfl, rfl, rfl, rfl, rfl, ?_, rfl, hb _, ?_⟩
    · cases r.priorStart <;> rfl
    · have : r.error = [] := by simpa using hne
      rw [this]; exact hd.zero

/-! ### recording -/

/-- Threads about to write slot `i` for the first time. -/
def initials (i : Nat) : List Worker → Nat
  | [] => 0
  | .initial n _ :: rest => (if n = i then 1 else 0) + initials i rest
  | _ :: rest => initials i rest

/-- Threads that have not decremented the counter yet. -/
def pending : List Worker → Nat
  | [] => 0
  | .initial _ _ :: rest => 1 + pending rest
  | .written _ :: rest => 1 + pending rest
  | _ :: rest => pending rest

@[simp] theorem initials_append (i : Nat) (a b : List Worker) :
    initials i (a ++ b) = initials i a + initials i b := by
  induction a with
  | nil => simp [initials]
  | cons t a ih => cases t <;> simp [initials, ih] <;> omega

@[simp] theorem pending_append (a b : List Worker) : pending (a ++ b) = pending a + pending b := by
  induction a with
  | nil => simp [pending]
  | cons t a ih => cases t <;> simp [pending, ih] <;> omega

theorem initials_le_pending (i : Nat) (l : List Worker) : initials i l ≤ pending l := by
  induction l with
  | nil => simp [initials]
  | cons t a ih => cases t <;> simp only [initials, pending] <;> (try split) <;> omega

structure Inv (cap : Nat) (s : State) : Prop where
  dict : DictOk s.dict
  number : s.number = s.recorded.length
  draws : s.draws.length = s.number - cap
  remaining : s.remaining + min s.number cap = cap + pending s.workers
  valid : s.invalid = false
  slot : ∀ i, (initials i s.workers = 0 ∧ (s.slots i = none ↔ s.number ≤ i ∨ cap ≤ i)) ∨
    (initials i s.workers = 1 ∧ s.slots i = none ∧ i < s.number ∧ i < cap)
  initial : ∀ n r, .initial n r ∈ s.workers → s.recorded[n]? = some r
  waiting : ∀ n i r, .waiting n i r ∈ s.workers →
    s.recorded[n]? = some r ∧ i < cap ∧ slotOf cap s.draws n = some i
  holds : ∀ i p, s.slots i = some p → slotOf cap s.draws p.sampleNumber = some i ∧
    ∃ r, s.recorded[p.sampleNumber]? = some r ∧
      Describes s.dict.contents r (unpack p).1 (unpack p).2
  compete : ∀ m i, cap ≤ m → m < s.number → i < cap → slotOf cap s.draws m = some i →
    (∃ r, .waiting m i r ∈ s.workers) ∨ ∃ p, s.slots i = some p ∧ m ≤ p.sampleNumber

theorem getElem?_append_some {α : Type} {l : List α} {i : Nat} {x : α} (m : List α)
    (h : l[i]? = some x) : (l ++ m)[i]? = some x := by
  rw [List.getElem?_append_left]
  · exact h
  · rcases Nat.lt_or_ge i l.length with h' | h'
    · exact h'
    · rw [List.getElem?_eq_none h'] at h; simp at h

theorem slotOf_append {cap n i : Nat} {draws : List Nat} (m : List Nat)
    (h : slotOf cap draws n = some i) : slotOf cap (draws ++ m) n = some i := by
  unfold slotOf at h ⊢
  split
  · rename_i hlt; rw [if_pos hlt] at h; exact h
  · rename_i hlt; rw [if_neg hlt] at h; exact getElem?_append_some m h

theorem slotOf_old {cap m n i : Nat} {draws : List Nat} {d : Nat} (hn : draws.length = n - cap)
    (hm : m < n) (h : slotOf cap (draws ++ [d]) m = some i) : slotOf cap draws m = some i := by
  unfold slotOf at h ⊢
  split
  · rename_i hlt; rw [if_pos hlt] at h; exact h
  · rename_i hlt
    rw [if_neg hlt, List.getElem?_append_left (by omega)] at h
    exact h

theorem inv_start (cap : Nat) {d : Dictionary} (hd : DictOk d) : Inv cap (start cap d) := by
  refine ⟨hd, rfl, by simp [start], by simp [start, pending], rfl, fun i => .inl ⟨rfl, ?_⟩, ?_, ?_, ?_, ?_⟩
  · simp [start]
  · simp [start]
  · simp [start]
  · simp [start]
  · intro m i _ hm; simp [start] at hm

theorem inv_arrive {cap : Nat} {s : State} (r : Rpc) (draw : Nat) (h : Inv cap s) :
    Inv cap (arrive cap r draw s) := by
  obtain ⟨h1, h2, h3, h4, h5, h6, h7, h8, h9, h10⟩ := h
  unfold arrive
  have hnew : (s.recorded ++ [r])[s.number]? = some r := by rw [h2]; simp
  by_cases hn : s.number < cap
  · simp only [if_pos hn]
    refine ⟨h1, by simp [h2], by simp only []; omega, ?_, h5, ?_, ?_, ?_, ?_, ?_⟩
    · simp only [pending_append, pending]; omega
    · intro i
      simp only [initials_append, initials]
      rcases h6 i with ⟨g1, g2⟩ | ⟨g1, g2, g3, g4⟩
      · by_cases hi : s.number = i
        · right
          rw [if_pos hi]
          exact ⟨by omega, g2.2 (.inl (by omega)), by omega, by omega⟩
        · left
          rw [if_neg hi]
          refine ⟨by omega, ?_⟩
          rw [g2]; omega
      · right
        rw [if_neg (by omega)]
        exact ⟨by omega, g2, by omega, g4⟩
    · intro n r' hm
      simp only [List.mem_append, List.mem_singleton, Worker.initial.injEq] at hm
      rcases hm with hm | ⟨rfl, rfl⟩
      · exact getElem?_append_some _ (h7 n r' hm)
      · exact hnew
    · intro n i r' hm
      simp only [List.mem_append, List.mem_singleton, reduceCtorEq, or_false] at hm
      obtain ⟨g1, g2, g3⟩ := h8 n i r' hm
      exact ⟨getElem?_append_some _ g1, g2, g3⟩
    · intro i p hp
      obtain ⟨g1, ⟨r', g2, g3⟩⟩ := h9 i p hp
      exact ⟨g1, ⟨r', getElem?_append_some _ g2, g3⟩⟩
    · intro m i hm1 hm2 _ _
      have hm2 : m < s.number + 1 := hm2
      omega
  · simp only [if_neg hn]
    have hso : slotOf cap (s.draws ++ [draw]) s.number = some draw := by
      unfold slotOf
      rw [if_neg hn, ← h3]; simp
    by_cases hd : draw ≥ cap
    · simp only [if_pos hd]
      refine ⟨h1, by simp [h2], ?_, ?_, h5, ?_, ?_, ?_, ?_, ?_⟩
      · simp only [List.length_append, List.length_singleton]; omega
      · simp only []; omega
      · intro i
        rcases h6 i with ⟨g1, g2⟩ | ⟨g1, g2, g3, g4⟩
        · exact .inl ⟨g1, by simp only []; rw [g2]; omega⟩
        · exact .inr ⟨g1, g2, by simp only []; omega, g4⟩
      · intro n r' hm; exact getElem?_append_some _ (h7 n r' hm)
      · intro n i r' hm
        obtain ⟨g1, g2, g3⟩ := h8 n i r' hm
        exact ⟨getElem?_append_some _ g1, g2, slotOf_append _ g3⟩
      · intro i p hp
        obtain ⟨g1, ⟨r', g2, g3⟩⟩ := h9 i p hp
        exact ⟨slotOf_append _ g1, ⟨r', getElem?_append_some _ g2, g3⟩⟩
      · intro m i hm1 hm2 hm3 hm4
        have hm2 : m < s.number + 1 := hm2
        by_cases hmn : m = s.number
        · exfalso
          subst hmn
          have hm4 : slotOf cap (s.draws ++ [draw]) s.number = some i := hm4
          rw [hso] at hm4
          injection hm4 with hm4
          omega
        · exact h10 m i hm1 (by omega) hm3 (slotOf_old h3 (by omega) hm4)
    · simp only [if_neg hd]
      refine ⟨h1, by simp [h2], ?_, ?_, h5, ?_, ?_, ?_, ?_, ?_⟩
      · simp only [List.length_append, List.length_singleton]; omega
      · simp only [pending_append, pending]; omega
      · intro i
        simp only [initials_append, initials]
        rcases h6 i with ⟨g1, g2⟩ | ⟨g1, g2, g3, g4⟩
        · exact .inl ⟨by omega, by rw [g2]; omega⟩
        · exact .inr ⟨by omega, g2, by omega, g4⟩
      · intro n r' hm
        simp only [List.mem_append, List.mem_singleton, reduceCtorEq, or_false] at hm
        exact getElem?_append_some _ (h7 n r' hm)
      · intro n i r' hm
        simp only [List.mem_append, List.mem_singleton, Worker.waiting.injEq] at hm
        rcases hm with hm | ⟨rfl, rfl, rfl⟩
        · obtain ⟨g1, g2, g3⟩ := h8 n i r' hm
          exact ⟨getElem?_append_some _ g1, g2, slotOf_append _ g3⟩
        · exact ⟨hnew, by omega, hso⟩
      · intro i p hp
        obtain ⟨g1, ⟨r', g2, g3⟩⟩ := h9 i p hp
        exact ⟨slotOf_append _ g1, ⟨r', getElem?_append_some _ g2, g3⟩⟩
      · intro m i hm1 hm2 hm3 hm4
        have hm2 : m < s.number + 1 := hm2
        have hm4 : slotOf cap (s.draws ++ [draw]) m = some i := hm4
        by_cases hmn : m = s.number
        · subst hmn
          rw [hso] at hm4
          injection hm4 with hm4
          exact .inl ⟨r, by rw [← hm4]; simp⟩
        · rcases h10 m i hm1 (by omega) hm3 (slotOf_old h3 (by omega) hm4) with ⟨r'', hr⟩ | hr
          · exact .inl ⟨r'', List.mem_append_left _ hr⟩
          · exact .inr hr

theorem inv_step {cap : Nat} (hcap : 0 < cap) {s s' : State} (h : Inv cap s) (hs : Step cap s s') :
    Inv cap s' := by
  cases hs with
  | arrive r draw hc hd => exact inv_arrive r draw h
  | @writeInitial l1 l2 n r hw =>
    obtain ⟨h1, h2, h3, h4, h5, h6, h7, h8, h9, h10⟩ := h
    obtain ⟨p1, ⟨rest, p2⟩, p3, p4⟩ := pack_ok h1 n r
    unfold writeInitial
    generalize pack s.dict n r = dp at *
    obtain ⟨d, p⟩ := dp
    simp only [] at p1 p2 p3 p4 ⊢
    have hn : n < cap ∧ n < s.number ∧ initials n l1 + initials n l2 = 0 ∧ s.slots n = none := by
      have := h6 n
      rw [hw] at this
      simp only [initials_append, initials, if_true] at this
      rcases this with ⟨g1, -⟩ | ⟨g1, g2, g3, g4⟩
      · omega
      · exact ⟨g4, g3, by omega, g2⟩
    refine ⟨p1, h2, h3, ?_, h5, ?_, ?_, ?_, ?_, ?_⟩
    · rw [hw] at h4
      simp only [pending_append, pending] at h4 ⊢; omega
    · intro i
      have := h6 i
      rw [hw] at this
      simp only [initials_append, initials, setSlot] at this ⊢
      by_cases hi : i = n
      · subst hi
        left
        exact ⟨by omega, by simp; omega⟩
      · rw [if_neg (fun h => hi h.symm)] at this
        rw [if_neg hi]
        simpa using this
    · intro m r' hm
      refine h7 m r' ?_
      rw [hw]
      simp only [List.mem_append, List.mem_cons, reduceCtorEq, false_or] at hm ⊢
      rcases hm with hm | hm
      · exact .inl hm
      · exact .inr (.inr hm)
    · intro m i r' hm
      refine h8 m i r' ?_
      rw [hw]
      simp only [List.mem_append, List.mem_cons, reduceCtorEq, false_or] at hm ⊢
      exact hm
    · intro i q hq
      simp only [setSlot] at hq
      by_cases hi : i = n
      · subst hi
        rw [if_pos rfl] at hq
        injection hq with hq
        subst hq
        rw [p3]
        exact ⟨by unfold slotOf; rw [if_pos hn.1], ⟨r, h7 i r (by rw [hw]; simp), p4⟩⟩
      · rw [if_neg hi] at hq
        obtain ⟨g1, ⟨r', g2, g3⟩⟩ := h9 i q hq
        exact ⟨g1, ⟨r', g2, by rw [p2]; exact describes_mono rest g3⟩⟩
    · intro m i hm1 hm2 hm3 hm4
      rcases h10 m i hm1 hm2 hm3 hm4 with ⟨r', hr⟩ | ⟨q, hq1, hq2⟩
      · left
        refine ⟨r', ?_⟩
        rw [hw] at hr
        simp only [List.mem_append, List.mem_cons, reduceCtorEq, false_or] at hr ⊢
        exact hr
      · right
        refine ⟨q, ?_, hq2⟩
        simp only [setSlot]
        rw [if_neg (fun h => by rw [h, hn.2.2.2] at hq1; simp at hq1)]
        exact hq1
  | @release l1 l2 n hw =>
    obtain ⟨h1, h2, h3, h4, h5, h6, h7, h8, h9, h10⟩ := h
    rw [hw] at h4 h6 h7 h8 h10
    simp only [pending_append, pending, initials_append, initials] at h4 h6
    refine ⟨h1, h2, h3, ?_, h5, ?_, ?_, ?_, h9, ?_⟩
    · simp only [release, pending_append]; omega
    · intro i; simp only [release, initials_append]; exact h6 i
    · intro m r' hm
      refine h7 m r' ?_
      simp only [release, List.mem_append, List.mem_cons, reduceCtorEq, false_or] at hm ⊢
      exact hm
    · intro m i r' hm
      refine h8 m i r' ?_
      simp only [release, List.mem_append, List.mem_cons, reduceCtorEq, false_or] at hm ⊢
      exact hm
    · intro m i hm1 hm2 hm3 hm4
      rcases h10 m i hm1 hm2 hm3 hm4 with ⟨r', hr⟩ | hr
      · left
        refine ⟨r', ?_⟩
        simp only [release, List.mem_append, List.mem_cons, reduceCtorEq, false_or] at hr ⊢
        exact hr
      · exact .inr hr
  | @replace l1 l2 n slot r hw hrem =>
    obtain ⟨h1, h2, h3, h4, h5, h6, h7, h8, h9, h10⟩ := h
    have hold : ∃ old, s.slots slot = some old := by
      obtain ⟨-, hlt, -⟩ := h8 n slot r (by rw [hw]; simp)
      have hle := initials_le_pending slot s.workers
      cases hx : s.slots slot with
      | some old => exact ⟨old, rfl⟩
      | none =>
        exfalso
        rcases h6 slot with ⟨g1, g2⟩ | ⟨g1, g2, g3, g4⟩
        · have := g2.1 hx
          omega
        · omega
    obtain ⟨old, hold⟩ := hold
    obtain ⟨w1, w2, w3⟩ := h8 n slot r (by rw [hw]; simp)
    rw [hw] at h4 h6 h7 h8 h10
    simp only [pending_append, pending, initials_append, initials] at h4 h6
    have hm7 : ∀ m r', Worker.initial m r' ∈ l1 ++ l2 → s.recorded[m]? = some r' := by
      intro m r' hm
      refine h7 m r' ?_
      simp only [List.mem_append, List.mem_cons, reduceCtorEq, false_or] at hm ⊢
      exact hm
    have hm8 : ∀ m i r', Worker.waiting m i r' ∈ l1 ++ l2 →
        s.recorded[m]? = some r' ∧ i < cap ∧ slotOf cap s.draws m = some i := by
      intro m i r' hm
      refine h8 m i r' ?_
      simp only [List.mem_append, List.mem_cons] at hm ⊢
      rcases hm with hm | hm
      · exact .inl hm
      · exact .inr (.inr hm)
    unfold replace
    rw [hold]
    simp only []
    by_cases hlt : old.sampleNumber < n
    · rw [if_pos hlt]
      obtain ⟨p1, ⟨rest, p2⟩, p3, p4⟩ := pack_ok h1 n r
      generalize pack s.dict n r = dp at *
      obtain ⟨d, p⟩ := dp
      simp only [] at p1 p2 p3 p4 ⊢
      refine ⟨p1, h2, h3, ?_, h5, ?_, hm7, hm8, ?_, ?_⟩
      · simp only [pending_append]; omega
      · intro i
        simp only [initials_append, setSlot]
        by_cases hi : i = slot
        · subst hi
          have := h6 i
          rw [hold] at this
          rw [if_pos rfl]
          simpa using this
        · rw [if_neg hi]; exact h6 i
      · intro i q hq
        simp only [setSlot] at hq
        by_cases hi : i = slot
        · subst hi
          rw [if_pos rfl] at hq
          injection hq with hq
          subst hq
          rw [p3]
          exact ⟨w3, r, w1, p4⟩
        · rw [if_neg hi] at hq
          obtain ⟨g1, ⟨r', g2, g3⟩⟩ := h9 i q hq
          exact ⟨g1, ⟨r', g2, by rw [p2]; exact describes_mono rest g3⟩⟩
      · intro m i hm1 hm2 hm3 hm4
        simp only [setSlot]
        rcases h10 m i hm1 hm2 hm3 hm4 with ⟨r', hr⟩ | ⟨q, hq1, hq2⟩
        · simp only [List.mem_append, List.mem_cons, Worker.waiting.injEq] at hr ⊢
          rcases hr with hr | ⟨rfl, rfl, rfl⟩ | hr
          · exact .inl ⟨r', .inl hr⟩
          · exact .inr ⟨p, by rw [if_pos rfl], by omega⟩
          · exact .inl ⟨r', .inr hr⟩
        · right
          by_cases hi : i = slot
          · subst hi
            rw [hold] at hq1
            injection hq1 with hq1
            subst hq1
            exact ⟨p, by rw [if_pos rfl], by omega⟩
          · exact ⟨q, by rw [if_neg hi]; exact hq1, hq2⟩
    · rw [if_neg hlt]
      refine ⟨h1, h2, h3, ?_, h5, ?_, hm7, hm8, h9, ?_⟩
      · simp only [pending_append]; omega
      · intro i; simp only [initials_append]; exact h6 i
      · intro m i hm1 hm2 hm3 hm4
        rcases h10 m i hm1 hm2 hm3 hm4 with ⟨r', hr⟩ | hr
        · simp only [List.mem_append, List.mem_cons, Worker.waiting.injEq] at hr ⊢
          rcases hr with hr | ⟨rfl, rfl, rfl⟩ | hr
          · exact .inl ⟨r', .inl hr⟩
          · exact .inr ⟨old, hold, by omega⟩
          · exact .inl ⟨r', .inr hr⟩
        · exact .inr hr
  | direct r hz => omega
  | lookup text =>
    obtain ⟨h1, h2, h3, h4, h5, h6, h7, h8, h9, h10⟩ := h
    refine ⟨dictOk_getIndex h1 text, h2, h3, h4, h5, h6, h7, h8, ?_, h10⟩
    intro i p hp
    obtain ⟨g1, ⟨r', g2, g3⟩⟩ := h9 i p hp
    obtain ⟨rest, hrest⟩ := getIndex_prefix s.dict text
    exact ⟨g1, ⟨r', g2, by simp only []; rw [hrest]; exact describes_mono rest g3⟩⟩

theorem inv_reachable {cap : Nat} (hcap : 0 < cap) {s : State} (h : Reachable cap s) : Inv cap s := by
  induction h with
  | start texts => exact inv_start cap (dictOk_foldl texts dictOk_empty)
  | step _ hs ih => exact inv_step hcap ih hs

/-- With packed samples nothing is added to the logs while the list runs. -/
theorem log_empty {cap : Nat} (hcap : 0 < cap) {s : State} (h : Reachable cap s) : s.log = [] := by
  induction h with
  | start texts => rfl
  | step _ hs ih =>
    cases hs with
    | arrive r draw =>
      unfold arrive
      simp only []
      split
      · exact ih
      · split <;> exact ih
    | writeInitial => exact ih
    | release => exact ih
    | replace =>
      unfold replace
      split
      · exact ih
      · split <;> exact ih
    | direct r hz => omega
    | lookup => exact ih

/-- Without packed samples. -/
structure DirectInv (s : State) : Prop where
  dict : DictOk s.dict
  number : s.number = 0
  workers : s.workers = []
  log : s.log.length = s.recorded.length
  describes : ∀ (j : Nat) k x, s.log[j]? = some (k, x) →
    ∃ r, s.recorded[j]? = some r ∧ Describes s.dict.contents r k x

theorem direct_reachable {s : State} (h : Reachable 0 s) : DirectInv s := by
  induction h with
  | start texts => exact ⟨dictOk_foldl texts dictOk_empty, rfl, rfl, rfl, by simp [start]⟩
  | @step s s' _ hs ih =>
    obtain ⟨h1, h2, h3, h4, h5⟩ := ih
    cases hs with
    | arrive r draw hz => omega
    | writeInitial hw => rw [h3] at hw; simp at hw
    | release hw => rw [h3] at hw; simp at hw
    | replace hw => rw [h3] at hw; simp at hw
    | direct r hz =>
      obtain ⟨p1, ⟨rest, p2⟩, p3⟩ := direct_ok h1 r
      unfold recordDirect
      generalize direct s.dict r = dp at *
      obtain ⟨d, e⟩ := dp
      simp only [] at p1 p2 p3 ⊢
      refine ⟨p1, h2, h3, by simp [h4], ?_⟩
      intro j k x hj
      rcases Nat.lt_or_ge j s.log.length with hlt | hge
      · have hj : (s.log ++ [e])[j]? = some (k, x) := hj
        rw [List.getElem?_append_left hlt] at hj
        obtain ⟨r', g1, g2⟩ := h5 j k x hj
        exact ⟨r', getElem?_append_some _ g1, by simp only []; rw [p2]; exact describes_mono rest g2⟩
      · have hj : (s.log ++ [e])[j]? = some (k, x) := hj
        rw [List.getElem?_append_right hge] at hj
        have hi : j - s.log.length = 0 := by
          rcases Nat.eq_zero_or_pos (j - s.log.length) with h | h
          · exact h
          · rw [List.getElem?_eq_none (by simp; omega)] at hj; simp at hj
        rw [hi] at hj
        simp only [List.getElem?_cons_zero, Option.some.injEq] at hj
        have hjl : j = s.recorded.length := by omega
        refine ⟨r, by simp [hjl], ?_⟩
        rw [hj] at p3
        exact p3
    | lookup text =>
      obtain ⟨rest, hrest⟩ := getIndex_prefix s.dict text
      refine ⟨dictOk_getIndex h1 text, h2, h3, h4, ?_⟩
      intro j k x hj
      obtain ⟨r', g1, g2⟩ := h5 j k x hj
      exact ⟨r', g1, by simp only []; rw [hrest]; exact describes_mono rest g2⟩

/-! ### the end of a run -/

theorem mapM_range {α : Type} (f : Nat → Option α) : ∀ (k : Nat) {ps : List α},
    (List.range k).mapM f = some ps → ps.length = k ∧ ∀ i, i < k → ps[i]? = f i := by
  intro k
  induction k with
  | zero => intro ps h; simp at h; subst h; simp
  | succ k ih =>
    intro ps h
    rw [List.range_succ, List.mapM_append] at h
    cases hq : (List.range k).mapM f with
    | none => rw [hq] at h; simp at h
    | some qs =>
      rw [hq] at h
      cases hf : f k with
      | none => simp [hf] at h
      | some x =>
        simp [hf] at h
        obtain ⟨g1, g2⟩ := ih hq
        subst h
        refine ⟨by simp [g1], fun i hi => ?_⟩
        rcases Nat.lt_or_ge i k with hik | hik
        · rw [List.getElem?_append_left (by omega)]; exact g2 i hik
        · have : i = k := by omega
          subst this
          rw [List.getElem?_append_right (by omega), g1]; simp [hf]

theorem mapM_range_some {α : Type} (f : Nat → Option α) : ∀ (k : Nat),
    (∀ i, i < k → f i ≠ none) → ∃ ps, (List.range k).mapM f = some ps := by
  intro k
  induction k with
  | zero => intro _; exact ⟨[], rfl⟩
  | succ k ih =>
    intro h
    obtain ⟨qs, hq⟩ := ih (fun i hi => h i (by omega))
    cases hf : f k with
    | none => exact absurd hf (h k (by omega))
    | some x => exact ⟨qs ++ [x], by rw [List.range_succ, List.mapM_append, hq]; simp [hf]⟩

theorem slots_filled {cap : Nat} {s : State} (h : Inv cap s) (hw : s.workers = []) (i : Nat)
    (hi : i < cap) (hn : i < s.number) : s.slots i ≠ none := by
  rcases h.slot i with ⟨g1, g2⟩ | ⟨g1, _⟩
  · intro hx; have := g2.1 hx; omega
  · rw [hw] at g1; simp [initials] at g1

theorem number_lt {cap : Nat} {s : State} (h : Inv cap s) {i : Nat} {p : Packed}
    (hp : s.slots i = some p) : p.sampleNumber < s.number := by
  obtain ⟨-, r, g, -⟩ := h.holds i p hp
  rw [h.number]
  rcases Nat.lt_or_ge p.sampleNumber s.recorded.length with h' | h'
  · exact h'
  · rw [List.getElem?_eq_none h'] at g; simp at g

theorem survives_slot {cap : Nat} {s : State} (h : Inv cap s) (hw : s.workers = []) {i : Nat}
    (hi : i < cap) {p : Packed} (hp : s.slots i = some p) :
    Survives cap s.draws s.number p.sampleNumber := by
  refine ⟨number_lt h hp, i, hi, (h.holds i p hp).1, ?_⟩
  intro m hm1 hm2 hm3
  have hs := (h.holds i p hp).1
  rcases Nat.lt_or_ge m cap with hm | hm
  · unfold slotOf at hm3 hs
    rw [if_pos hm] at hm3
    rw [if_pos (by omega)] at hs
    injection hm3 with hm3
    injection hs with hs
    omega
  · rcases h.compete m i hm hm2 hi hm3 with ⟨r, hr⟩ | ⟨q, hq1, hq2⟩
    · rw [hw] at hr; simp at hr
    · rw [hp] at hq1; injection hq1 with hq1; subst hq1; omega

theorem slot_survives {cap : Nat} {s : State} (h : Inv cap s) (hw : s.workers = []) {n : Nat}
    (hn : Survives cap s.draws s.number n) :
    ∃ i, i < cap ∧ i < s.number ∧ ∃ p, s.slots i = some p ∧ p.sampleNumber = n := by
  obtain ⟨h1, i, h2, h3, h4⟩ := hn
  have hin : i < s.number := by
    unfold slotOf at h3
    split at h3
    · injection h3 with h3; omega
    · omega
  cases hp : s.slots i with
  | none => exact absurd hp (slots_filled h hw i h2 hin)
  | some p =>
    refine ⟨i, h2, hin, p, hp ▸ rfl, ?_⟩
    obtain ⟨-, j, hj, k1, k2⟩ := survives_slot h hw h2 hp
    have := (h.holds i p hp).1
    rw [this] at k1
    injection k1 with k1
    subst k1
    rcases Nat.lt_trichotomy p.sampleNumber n with hl | hl | hl
    · exact absurd h3 (k2 n hl h1)
    · exact hl
    · exact absurd this (h4 _ hl (number_lt h hp))

/-- The samples that are reported, from any order of the slots. -/
theorem report_ok {cap : Nat} {s : State} (h : Inv cap s) (hw : s.workers = [])
    {ps qs : List Packed} (hps : (List.range (min cap s.number)).mapM s.slots = some ps)
    (hperm : qs.Perm ps) :
    (qs.map Packed.sampleNumber).Nodup ∧
    (∀ n, n ∈ qs.map Packed.sampleNumber ↔ Survives cap s.draws s.number n) ∧
    qs.length = min cap s.number ∧
    DescribesAll s.dict.contents s.recorded (qs.map Packed.sampleNumber) (qs.map unpack) := by
  obtain ⟨g1, g2⟩ := mapM_range s.slots _ hps
  have hmem : ∀ q, q ∈ ps ↔ ∃ i, i < min cap s.number ∧ s.slots i = some q := by
    intro q
    constructor
    · intro hq
      obtain ⟨i, hi, e⟩ := List.getElem_of_mem hq
      refine ⟨i, by omega, ?_⟩
      rw [← g2 i (by omega), List.getElem?_eq_getElem hi, e]
    · rintro ⟨i, hi, e⟩
      rw [← g2 i hi] at e
      exact List.mem_of_getElem? e
  refine ⟨?_, ?_, ?_, ?_⟩
  · rw [(hperm.map _).nodup_iff, List.nodup_iff_pairwise_ne, List.pairwise_iff_getElem]
    intro i j hi hj hij heq
    rw [List.getElem_map, List.getElem_map] at heq
    rw [List.length_map] at hi hj
    have ei := g2 i (by omega)
    have ej := g2 j (by omega)
    rw [List.getElem?_eq_getElem hi] at ei
    rw [List.getElem?_eq_getElem hj] at ej
    have a := (h.holds i _ ei.symm).1
    have b := (h.holds j _ ej.symm).1
    rw [heq, b] at a
    injection a with a
    omega
  · intro n
    rw [(hperm.map _).mem_iff, List.mem_map]
    constructor
    · rintro ⟨q, hq, rfl⟩
      obtain ⟨i, hi, e⟩ := (hmem q).1 hq
      exact survives_slot h hw (by omega) e
    · intro hn
      obtain ⟨i, a, b, p, e, f⟩ := slot_survives h hw hn
      exact ⟨p, (hmem p).2 ⟨i, by omega, e⟩, f⟩
  · rw [hperm.length_eq]; exact g1
  · refine ⟨by simp, ?_⟩
    intro j k x hj
    rw [List.getElem?_map] at hj
    cases hq : qs[j]? with
    | none => rw [hq] at hj; simp at hj
    | some q =>
      rw [hq] at hj
      simp only [Option.map_some, Option.some.injEq] at hj
      obtain ⟨i, hi, e⟩ := (hmem q).1 (hperm.mem_iff.1 (List.mem_of_getElem? hq))
      obtain ⟨-, r, a, b⟩ := h.holds i q e
      refine ⟨q.sampleNumber, r, by rw [List.getElem?_map, hq]; rfl, a, ?_⟩
      rw [hj] at b
      exact b

/-! ### threads can finish -/

theorem later_cons {cap : Nat} {a b c : State} (h : Step cap a b) (h' : Later cap b c) :
    Later cap a c := by
  induction h' with
  | refl => exact .step .refl h
  | step _ hs ih => exact .step ih hs

theorem waiting_late {cap : Nat} {s : State} (h : Reachable cap s) :
    ∀ n i r, .waiting n i r ∈ s.workers → cap ≤ n := by
  induction h with
  | start texts => intro n i r h; simp [start] at h
  | @step s s' _ hs ih =>
    intro n i r hm
    cases hs with
    | arrive r' draw =>
      unfold arrive at hm
      simp only [] at hm
      split at hm
      · simp only [List.mem_append, List.mem_singleton, reduceCtorEq, or_false] at hm
        exact ih n i r hm
      · split at hm
        · exact ih n i r hm
        · simp only [List.mem_append, List.mem_singleton, Worker.waiting.injEq] at hm
          rcases hm with hm | ⟨rfl, -, -⟩
          · exact ih n i r hm
          · omega
    | writeInitial hw =>
      refine ih n i r ?_
      rw [hw]
      simp only [writeInitial, List.mem_append, List.mem_cons, reduceCtorEq, false_or] at hm ⊢
      exact hm
    | release hw =>
      refine ih n i r ?_
      rw [hw]
      simp only [release, List.mem_append, List.mem_cons, reduceCtorEq, false_or] at hm ⊢
      exact hm
    | @replace l1 l2 n' slot r' hw =>
      refine ih n i r ?_
      have : Worker.waiting n i r ∈ l1 ++ l2 := by
        unfold replace at hm
        split at hm
        · exact hm
        · split at hm <;> exact hm
      rw [hw]
      simp only [List.mem_append, List.mem_cons] at this ⊢
      rcases this with h | h
      · exact .inl h
      · exact .inr (.inr h)
    | direct => exact ih n i r hm
    | lookup => exact ih n i r hm

def weight : List Worker → Nat
  | [] => 0
  | .initial _ _ :: l => 2 + weight l
  | _ :: l => 1 + weight l

theorem weight_append (l1 l2 : List Worker) : weight (l1 ++ l2) = weight l1 + weight l2 := by
  induction l1 with
  | nil => simp [weight]
  | cons w l ih => cases w <;> simp [weight, ih] <;> omega

theorem pending_zero {ws : List Worker} (h1 : ∀ n r, .initial n r ∉ ws) (h2 : ∀ n, .written n ∉ ws) : pending ws = 0 := by
  induction ws with
  | nil => rfl
  | cons w l ih =>
    cases w with
    | initial n r => exact absurd List.mem_cons_self (h1 n r)
    | written n => exact absurd List.mem_cons_self (h2 n)
    | waiting n i r =>
      simp only [pending]
      exact ih (fun n r hm => h1 n r (List.mem_cons_of_mem _ hm))
        (fun n hm => h2 n (List.mem_cons_of_mem _ hm))

theorem can_step {cap : Nat} (hcap : 0 < cap) {s : State} (h : Reachable cap s)
    (hw : s.workers ≠ []) : ∃ s', Step cap s s' ∧ weight s'.workers < weight s.workers ∧
      s'.recorded = s.recorded ∧ s'.draws = s.draws := by
  by_cases h1 : ∃ n r, .initial n r ∈ s.workers
  · obtain ⟨n, r, hm⟩ := h1
    obtain ⟨l1, l2, e⟩ := List.append_of_mem hm
    refine ⟨_, .writeInitial e, ?_, rfl, rfl⟩
    rw [e]
    simp only [writeInitial, weight_append, weight]
    omega
  by_cases h2 : ∃ n, .written n ∈ s.workers
  · obtain ⟨n, hm⟩ := h2
    obtain ⟨l1, l2, e⟩ := List.append_of_mem hm
    refine ⟨_, .release e, ?_, rfl, rfl⟩
    rw [e]
    simp only [release, weight_append, weight]
    omega
  have hp : pending s.workers = 0 := pending_zero
    (fun n r hm => h1 ⟨n, r, hm⟩) (fun n hm => h2 ⟨n, hm⟩)
  have hi := inv_reachable hcap h
  cases hx : s.workers with
  | nil => exact absurd hx hw
  | cons w l =>
    cases w with
    | initial n r => exact absurd ⟨n, r, by rw [hx]; simp⟩ h1
    | written n => exact absurd ⟨n, by rw [hx]; simp⟩ h2
    | waiting n i r =>
      have hmem : Worker.waiting n i r ∈ s.workers := by rw [hx]; simp
      have hlate := waiting_late h n i r hmem
      obtain ⟨g, -, -⟩ := hi.waiting n i r hmem
      have hlt : n < s.number := by
        rw [hi.number]
        rcases Nat.lt_or_ge n s.recorded.length with h' | h'
        · exact h'
        · rw [List.getElem?_eq_none h'] at g; simp at g
      have hrem : s.remaining = 0 := by have := hi.remaining; omega
      refine ⟨_, .replace (l1 := []) hx hrem, ?_, ?_, ?_⟩
      · unfold replace
        split
        · simp only [weight, List.nil_append]; omega
        · split <;> (simp only [weight, List.nil_append]; omega)
      · unfold replace; split
        · rfl
        · split <;> rfl
      · unfold replace; split
        · rfl
        · split <;> rfl

theorem can_finish {cap : Nat} (hcap : 0 < cap) : ∀ (k : Nat) {s : State}, Reachable cap s →
    weight s.workers ≤ k → ∃ s', Later cap s s' ∧ s'.workers = [] ∧ s'.recorded = s.recorded ∧
      s'.draws = s.draws := by
  intro k
  induction k with
  | zero =>
    intro s h hk
    refine ⟨s, .refl, ?_, rfl, rfl⟩
    cases hx : s.workers with
    | nil => rfl
    | cons w l => rw [hx] at hk; cases w <;> simp [weight] at hk
  | succ k ih =>
    intro s h hk
    by_cases hw : s.workers = []
    · exact ⟨s, .refl, hw, rfl, rfl⟩
    · obtain ⟨s1, a, b, c, d⟩ := can_step hcap h hw
      obtain ⟨s2, e, f, g, i⟩ := ih (.step h a) (by omega)
      exact ⟨s2, later_cons a e, f, g.trans c, i.trans d⟩

/-! ### the draws -/

theorem mem_allDraws_snoc {cap m : Nat} {v : List Nat} {d : Nat} (h : v ∈ allDraws cap m)
    (hd : d ≤ cap + m) : v ++ [d] ∈ allDraws cap (m + 1) := by
  unfold allDraws
  rw [List.mem_flatMap]
  exact ⟨v, h, List.mem_map.2 ⟨d, by rw [List.mem_range]; omega, rfl⟩⟩

theorem allDraws_length {cap : Nat} : ∀ (m : Nat) {v : List Nat}, v ∈ allDraws cap m → v.length = m := by
  intro m
  induction m with
  | zero => intro v h; simp [allDraws] at h; simp [h]
  | succ m ih =>
    intro v h
    unfold allDraws at h
    rw [List.mem_flatMap] at h
    obtain ⟨w, hw, hv⟩ := h
    obtain ⟨d, -, rfl⟩ := List.mem_map.1 hv
    simp [ih hw]

theorem draws_mem {cap : Nat} (hcap : 0 < cap) {s : State} (h : Reachable cap s) :
    s.draws ∈ allDraws cap (s.number - cap) := by
  induction h with
  | start texts => simp [start, allDraws]
  | @step s s' hr hs ih =>
    cases hs with
    | arrive r draw _ hd =>
      unfold arrive
      simp only []
      by_cases hn : s.number < cap
      · rw [if_pos hn]
        show s.draws ∈ allDraws cap (s.number + 1 - cap)
        rw [show s.number + 1 - cap = s.number - cap from by omega]
        exact ih
      · rw [if_neg hn]
        have : s.draws ++ [draw] ∈ allDraws cap (s.number + 1 - cap) := by
          rw [show s.number + 1 - cap = (s.number - cap) + 1 from by omega]
          exact mem_allDraws_snoc ih (by omega)
        split <;> exact this
    | writeInitial => exact ih
    | release => exact ih
    | replace =>
      unfold replace
      split
      · exact ih
      · split <;> exact ih
    | direct r hz => omega
    | lookup => exact ih

theorem countP_flatMap_const {α β : Type} (p : β → Bool) (q : α → Bool) (f : α → List β) (c : Nat) :
    ∀ (l : List α), (∀ v ∈ l, (f v).countP p = if q v then c else 0) →
      (l.flatMap f).countP p = c * l.countP q := by
  intro l
  induction l with
  | nil => intro _; simp
  | cons v l ih =>
    intro h
    rw [List.flatMap_cons, List.countP_append, ih (fun w hw => h w (List.mem_cons_of_mem _ hw)),
      h v List.mem_cons_self, List.countP_cons]
    split
    · rw [Nat.mul_add, Nat.mul_one, Nat.add_comm]
    · rw [Nat.zero_add, Nat.add_zero]

theorem countP_range_ne (i : Nat) : ∀ N, (List.range N).countP (fun d => decide (d ≠ i)) =
    if i < N then N - 1 else N := by
  intro N
  induction N with
  | zero => simp
  | succ N ih =>
    rw [List.range_succ, List.countP_append, ih, List.countP_singleton]
    by_cases h : N = i
    · subst h; simp
    · have : decide (N ≠ i) = true := by simp [h]
      rw [if_pos this]
      split <;> split <;> omega

theorem countP_range_lt (k : Nat) : ∀ N, (List.range N).countP (fun d => decide (d < k)) = min N k := by
  intro N
  induction N with
  | zero => simp
  | succ N ih =>
    rw [List.range_succ, List.countP_append, ih, List.countP_singleton]
    by_cases h : N < k
    · rw [if_pos (by simpa using h)]; omega
    · rw [if_neg (by simpa using h)]; omega

theorem slotOf_last {cap m : Nat} {v : List Nat} (hv : v.length = m) (d : Nat) :
    slotOf cap (v ++ [d]) (cap + m) = some d := by
  unfold slotOf
  rw [if_neg (by omega), List.getElem?_append_right (by omega)]
  simp [hv]

theorem slotOf_before {cap m n : Nat} {v : List Nat} (hv : v.length = m) (d : Nat)
    (hn : n < cap + m) : slotOf cap (v ++ [d]) n = slotOf cap v n := by
  unfold slotOf
  split
  · rfl
  · rw [List.getElem?_append_left (by omega)]

theorem survives_snoc {cap m n : Nat} {v : List Nat} (hv : v.length = m) (d : Nat)
    (hn : n < cap + m) : Survives cap (v ++ [d]) (cap + m + 1) n ↔
      Survives cap v (cap + m) n ∧ slotOf cap v n ≠ some d := by
  constructor
  · rintro ⟨-, i, h2, h3, h4⟩
    rw [slotOf_before hv d hn] at h3
    refine ⟨⟨hn, i, h2, h3, ?_⟩, ?_⟩
    · intro k hk1 hk2
      have := h4 k hk1 (by omega)
      rwa [slotOf_before hv d hk2] at this
    · intro hd
      have := h4 (cap + m) hn (by omega)
      rw [slotOf_last hv d, ← h3, hd] at this
      exact this rfl
  · rintro ⟨⟨-, i, h2, h3, h4⟩, h5⟩
    refine ⟨by omega, i, h2, by rw [slotOf_before hv d hn]; exact h3, ?_⟩
    intro k hk1 hk2
    rcases Nat.lt_or_ge k (cap + m) with hk | hk
    · rw [slotOf_before hv d hk]; exact h4 k hk1 hk
    · have : k = cap + m := by omega
      subst this
      rw [slotOf_last hv d, ← h3]
      exact fun e => h5 e.symm

theorem survives_new {cap m : Nat} {v : List Nat} (hv : v.length = m) (d : Nat) :
    Survives cap (v ++ [d]) (cap + m + 1) (cap + m) ↔ d < cap := by
  constructor
  · rintro ⟨-, i, h2, h3, -⟩
    rw [slotOf_last hv d] at h3
    injection h3 with h3
    omega
  · intro h
    exact ⟨by omega, d, h, slotOf_last hv d, fun k a b => by omega⟩

theorem allDraws_count (cap m : Nat) :
    (allDraws cap (m + 1)).length = (cap + m + 1) * (allDraws cap m).length := by
  rw [allDraws]
  have := countP_flatMap_const (fun _ => true) (fun _ => true)
    (fun v => (List.range (cap + m + 1)).map (fun d => v ++ [d])) (cap + m + 1)
    (allDraws cap m) (by intro v _; simp)
  simpa using this

theorem uniform (cap : Nat) : ∀ (m n : Nat), n < cap + m →
    (allDraws cap m).countP (fun v => decide (Survives cap v (cap + m) n)) * (cap + m)
      = cap * (allDraws cap m).length := by
  intro m
  induction m with
  | zero =>
    intro n hn
    have : Survives cap [] (cap + 0) n := by
      refine ⟨hn, n, by omega, by unfold slotOf; rw [if_pos (by omega)], ?_⟩
      intro k hk1 hk2
      unfold slotOf
      rw [if_pos (by omega)]
      intro h; injection h with h; omega
    simp only [allDraws, List.countP_singleton, List.length_singleton]
    rw [if_pos (by simpa using this)]
    omega
  | succ m ih =>
    intro n hn
    rw [allDraws_count, ← Nat.add_assoc]
    have hn : n < cap + m + 1 := hn
    rcases Nat.lt_or_ge n (cap + m) with hlt | hge
    · have hk : (allDraws cap (m + 1)).countP (fun v => decide (Survives cap v (cap + m + 1) n))
          = (cap + m) * (allDraws cap m).countP (fun v => decide (Survives cap v (cap + m) n)) := by
        rw [allDraws]
        refine countP_flatMap_const _ _ _ _ _ ?_
        intro v hv
        have hl := allDraws_length m hv
        rw [List.countP_map]
        by_cases hs : Survives cap v (cap + m) n
        · rw [if_pos (by simpa using hs)]
          obtain ⟨-, i, h2, h3, -⟩ := id hs
          have : ((fun v => decide (Survives cap v (cap + m + 1) n)) ∘ fun d => v ++ [d])
              = fun d => decide (d ≠ i) := by
            funext d
            simp only [Function.comp_apply, decide_eq_decide]
            rw [survives_snoc hl d hlt, h3]
            constructor
            · rintro ⟨-, h⟩ e; exact h (by rw [e])
            · intro h; exact ⟨hs, fun e => h (by injection e with e; exact e.symm)⟩
          rw [this, countP_range_ne, if_pos (by omega)]
          omega
        · rw [if_neg (by simpa using hs), List.countP_eq_zero]
          intro d _
          simp only [Function.comp_apply, decide_eq_true_eq]
          rw [survives_snoc hl d hlt]
          exact fun h => hs h.1
      rw [hk, Nat.mul_comm (cap + m), ih n hlt, Nat.mul_assoc, Nat.mul_comm _ (cap + m + 1)]
    · have hnn : n = cap + m := by omega
      subst hnn
      have hk : (allDraws cap (m + 1)).countP
            (fun v => decide (Survives cap v (cap + m + 1) (cap + m)))
          = cap * (allDraws cap m).countP (fun _ => true) := by
        rw [allDraws]
        refine countP_flatMap_const _ _ _ _ _ ?_
        intro v hv
        have hl := allDraws_length m hv
        rw [List.countP_map, if_pos rfl]
        have : ((fun v => decide (Survives cap v (cap + m + 1) (cap + m))) ∘ fun d => v ++ [d])
            = fun d => decide (d < cap) := by
          funext d
          simp only [Function.comp_apply, decide_eq_decide]
          exact survives_new hl d
        rw [this, countP_range_lt]
        omega
      rw [hk, List.countP_true, Nat.mul_assoc, Nat.mul_comm _ (cap + m + 1)]

end Distbench.Sampling
