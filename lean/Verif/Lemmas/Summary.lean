import Verif.Spec.Summary

/-! Lemmas about the summary: ordered maps, the collected sums, percentile indices. -/

namespace Distbench.Summary
open Spec

/-! ### Ordered maps -/

/-- A strict total order. -/
structure StrictTotal {κ : Type} (lt : κ → κ → Bool) : Prop where
  irrefl : ∀ a, lt a a = false
  trans : ∀ a b c, lt a b = true → lt b c = true → lt a c = true
  total : ∀ a b, lt a b = false → a ≠ b → lt b a = true

theorem strLt_total : StrictTotal strLt := by
  refine ⟨?_, ?_, ?_⟩
  · intro a
    induction a with
    | nil => rfl
    | cons x a ih => simp [strLt, ih]
  · intro a
    induction a with
    | nil =>
      intro b c h1 h2
      cases b with
      | nil => simp [strLt] at h1
      | cons y b =>
        cases c with
        | nil => simp [strLt] at h2
        | cons z c => rfl
    | cons x a ih =>
      intro b c h1 h2
      cases b with
      | nil => simp [strLt] at h1
      | cons y b =>
        cases c with
        | nil => simp [strLt] at h2
        | cons z c =>
          simp only [strLt] at h1 h2 ⊢
          by_cases hxy : x = y
          · subst hxy
            by_cases hxz : x = z
            · subst hxz
              simp only [if_true] at h1 h2 ⊢
              exact ih b c h1 h2
            · simp only [if_neg hxz] at h2 ⊢
              exact h2
          · simp only [if_neg hxy, decide_eq_true_eq] at h1
            by_cases hyz : y = z
            · subst hyz
              simp only [if_neg hxy, decide_eq_true_eq]
              exact h1
            · simp only [if_neg hyz, decide_eq_true_eq] at h2
              have hxz : x ≠ z := by
                intro h; subst h; omega
              simp only [if_neg hxz, decide_eq_true_eq]
              omega
  · intro a
    induction a with
    | nil =>
      intro b h1 h2
      cases b with
      | nil => exact absurd rfl h2
      | cons y b => simp [strLt] at h1
    | cons x a ih =>
      intro b h1 h2
      cases b with
      | nil => rfl
      | cons y b =>
        simp only [strLt] at h1 ⊢
        by_cases hxy : x = y
        · subst hxy
          simp only [if_true] at h1 ⊢
          exact ih b h1 (fun h => h2 (by rw [h]))
        · simp only [if_neg hxy, decide_eq_false_iff_not] at h1
          simp only [if_neg (Ne.symm hxy), decide_eq_true_eq]
          have : x.toNat ≠ y.toNat := fun h => hxy (Char.toNat_inj.1 h)
          omega

theorem pairLt_total : StrictTotal pairLt := by
  obtain ⟨h1, h2, h3⟩ := strLt_total
  refine ⟨?_, ?_, ?_⟩
  · intro a; simp [pairLt, h1]
  · rintro ⟨a1, a2⟩ ⟨b1, b2⟩ ⟨c1, c2⟩ hab hbc
    simp only [pairLt] at *
    by_cases e1 : a1 = b1
    · subst e1
      by_cases e2 : a1 = c1
      · subst e2
        simp only [if_true] at *
        exact h2 _ _ _ hab hbc
      · simp only [if_neg e2] at *
        exact hbc
    · simp only [if_neg e1] at hab
      by_cases e2 : b1 = c1
      · subst e2
        simp only [if_neg e1]
        exact hab
      · simp only [if_neg e2] at hbc
        have e3 : a1 ≠ c1 := by
          intro h; subst h
          have := h2 _ _ _ hab hbc
          rw [h1] at this
          cases this
        simp only [if_neg e3]
        exact h2 _ _ _ hab hbc
  · rintro ⟨a1, a2⟩ ⟨b1, b2⟩ hab hne
    simp only [pairLt] at *
    by_cases e1 : a1 = b1
    · subst e1
      simp only [if_true] at *
      exact h3 _ _ hab (fun h => hne (by rw [h]))
    · simp only [if_neg e1] at hab
      simp only [if_neg (Ne.symm e1)]
      exact h3 _ _ hab e1

/-- The keys ascend. -/
def Ascending {κ α : Type} (lt : κ → κ → Bool) (m : List (κ × α)) : Prop :=
  m.Pairwise (fun a b => lt a.1 b.1 = true)

variable {κ α : Type} [DecidableEq κ] {lt : κ → κ → Bool}

theorem mem_update {k : κ} {new : α} {f : α → α} {m : List (κ × α)} {e : κ × α}
    (h : e ∈ update lt k new f m) : e.1 = k ∨ e ∈ m := by
  induction m with
  | nil => simp [update] at h; exact Or.inl (by rw [h])
  | cons a m ih =>
    obtain ⟨k', v⟩ := a
    simp only [update] at h
    split at h
    · rename_i hk
      rcases List.mem_cons.1 h with h | h
      · exact Or.inl (by rw [h]; exact hk.symm)
      · exact Or.inr (by simp [h])
    · split at h
      · rcases List.mem_cons.1 h with h | h
        · exact Or.inl (by rw [h])
        · exact Or.inr h
      · rcases List.mem_cons.1 h with h | h
        · exact Or.inr (by simp [h])
        · rcases ih h with h | h
          · exact Or.inl h
          · exact Or.inr (by simp [h])

theorem ascending_update (hlt : StrictTotal lt) {k : κ} {new : α} {f : α → α} {m : List (κ × α)}
    (hm : Ascending lt m) : Ascending lt (update lt k new f m) := by
  induction m with
  | nil => simp [update, Ascending]
  | cons a m ih =>
    obtain ⟨k', v⟩ := a
    have hm' := List.pairwise_cons.1 hm
    simp only [update]
    split
    · exact List.pairwise_cons.2 ⟨hm'.1, hm'.2⟩
    · rename_i hne
      split
      · rename_i hl
        refine List.pairwise_cons.2 ⟨?_, hm⟩
        intro e he
        rcases List.mem_cons.1 he with he | he
        · rw [he]; exact hl
        · exact hlt.trans _ _ _ hl (hm'.1 e he)
      · rename_i hl
        refine List.pairwise_cons.2 ⟨?_, ih hm'.2⟩
        intro e he
        rcases mem_update he with he | he
        · rw [he]; exact hlt.total _ _ (by simpa using hl) hne
        · exact hm'.1 e he

theorem find_none {k : κ} {m : List (κ × α)} (h : ∀ e ∈ m, e.1 ≠ k) : find k m = none := by
  induction m with
  | nil => rfl
  | cons a m ih =>
    obtain ⟨k', v⟩ := a
    simp only [find]
    rw [if_neg (fun e => h (k', v) (by simp) e.symm)]
    exact ih (fun e he => h e (by simp [he]))

theorem find_update (hlt : StrictTotal lt) {k k2 : κ} {new : α} {f : α → α} {m : List (κ × α)}
    (hm : Ascending lt m) :
    find k2 (update lt k new f m) = if k2 = k then some (f ((find k m).getD new)) else find k2 m := by
  induction m with
  | nil => simp [update, find]
  | cons a m ih =>
    obtain ⟨k', v⟩ := a
    have hm' := List.pairwise_cons.1 hm
    simp only [update]
    split
    · rename_i hk
      subst hk
      simp only [find]
      by_cases h2 : k2 = k <;> simp [h2]
    · rename_i hne
      split
      · rename_i hl
        have hnone : find k ((k', v) :: m) = none := by
          apply find_none
          intro e he hek
          rcases List.mem_cons.1 he with he | he
          · rw [he] at hek; exact hne hek.symm
          · have := hlt.trans _ _ _ hl (hm'.1 e he)
            rw [hek, hlt.irrefl] at this
            cases this
        rw [hnone]
        simp only [find, Option.getD_none]
      · simp only [find]
        rw [ih hm'.2, if_neg hne]
        by_cases h2 : k2 = k
        · subst h2; simp [hne]
        · by_cases h3 : k2 = k'
          · subst h3; simp [h2]
          · simp [h2, h3]

theorem find_mem {k : κ} {v : α} {m : List (κ × α)} (h : find k m = some v) : (k, v) ∈ m := by
  induction m with
  | nil => simp [find] at h
  | cons a m ih =>
    obtain ⟨k', v'⟩ := a
    simp only [find] at h
    split at h
    · rename_i hk
      simp at h
      simp [hk, h]
    · simp [ih h]

theorem mem_find (hlt : StrictTotal lt) {k : κ} {v : α} {m : List (κ × α)} (hm : Ascending lt m)
    (h : (k, v) ∈ m) : find k m = some v := by
  induction m with
  | nil => simp at h
  | cons a m ih =>
    obtain ⟨k', v'⟩ := a
    have hm' := List.pairwise_cons.1 hm
    simp only [find]
    rcases List.mem_cons.1 h with h | h
    · simp at h
      simp [h]
    · have := hm'.1 _ h
      have hne : k ≠ k' := by
        intro e; subst e
        rw [show lt k k = false from hlt.irrefl k] at this
        cases this
      rw [if_neg hne]
      exact ih hm'.2 h

theorem ascending_ext (hlt : StrictTotal lt) {m m' : List (κ × α)} (hm : Ascending lt m) (hm' : Ascending lt m')
    (h : ∀ k, find k m = find k m') : m = m' := by
  induction m generalizing m' with
  | nil =>
    cases m' with
    | nil => rfl
    | cons a m' =>
      obtain ⟨k, v⟩ := a
      have := h k
      simp [find] at this
  | cons a m ih =>
    obtain ⟨k, v⟩ := a
    have hm1 := List.pairwise_cons.1 hm
    cases m' with
    | nil =>
      have := h k
      simp [find] at this
    | cons a' m' =>
      obtain ⟨k', v'⟩ := a'
      have hm2 := List.pairwise_cons.1 hm'
      have hkk : k = k' := by
        apply Classical.byContradiction
        intro hne
        have h1 : (k, v) ∈ (k', v') :: m' := find_mem (by rw [← h k]; simp [find])
        have h2 : (k', v') ∈ (k, v) :: m := find_mem (by rw [h k']; simp [find])
        have h1' : (k, v) ∈ m' := by
          rcases List.mem_cons.1 h1 with e | e
          · simp at e; exact absurd e.1 hne
          · exact e
        have h2' : (k', v') ∈ m := by
          rcases List.mem_cons.1 h2 with e | e
          · simp at e; exact absurd e.1.symm hne
          · exact e
        have := hlt.trans _ _ _ (hm1.1 _ h2') (hm2.1 _ h1')
        simp [hlt.irrefl] at this
      subst hkk
      have hv : v = v' := by
        have := h k
        simpa [find] using this
      subst hv
      congr 1
      apply ih hm1.2 hm2.2
      intro k2
      by_cases e : k2 = k
      · subst e
        rw [find_none, find_none]
        · intro e he hek
          have := hm2.1 e he
          rw [hek, show lt k2 k2 = false from hlt.irrefl k2] at this
          cases this
        · intro e he hek
          have := hm1.1 e he
          rw [hek, show lt k2 k2 = false from hlt.irrefl k2] at this
          cases this
      · have := h k2
        simpa [find, e] using this

theorem update_update {k : κ} {new : α} {f g : α → α} {m : List (κ × α)} :
    update lt k new g (update lt k new f m) = update lt k new (fun v => g (f v)) m := by
  induction m with
  | nil => simp [update]
  | cons a m ih =>
    obtain ⟨k', v⟩ := a
    simp only [update]
    split
    · rename_i hk; simp [update, hk]
    · rename_i hne
      split
      · simp [update]
      · rename_i hl
        simp [update, hne, hl, ih]

/-! ### Sorting -/

theorem insert_perm (x : Int) (l : List Int) : (insert x l).Perm (x :: l) := by
  induction l with
  | nil => exact .refl _
  | cons y l ih =>
    simp only [insert]
    split
    · exact .refl _
    · exact (ih.cons y).trans (.swap ..)

theorem sort_perm (l : List Int) : (sort l).Perm l := by
  induction l with
  | nil => exact .refl _
  | cons x l ih => exact (insert_perm x _).trans (ih.cons x)

theorem insert_sorted (x : Int) {l : List Int} (h : l.Pairwise (· ≤ ·)) : (insert x l).Pairwise (· ≤ ·) := by
  induction l with
  | nil => simp [insert]
  | cons y l ih =>
    have h' := List.pairwise_cons.1 h
    simp only [insert]
    split
    · rename_i hxy
      refine List.pairwise_cons.2 ⟨?_, h⟩
      intro z hz
      rcases List.mem_cons.1 hz with hz | hz
      · omega
      · have := h'.1 z hz; omega
    · rename_i hxy
      refine List.pairwise_cons.2 ⟨?_, ih h'.2⟩
      intro z hz
      rcases List.mem_cons.1 ((insert_perm x l).mem_iff.1 hz) with hz | hz
      · omega
      · exact h'.1 z hz

theorem sort_sorted (l : List Int) : (sort l).Pairwise (· ≤ ·) := by
  induction l with
  | nil => exact .nil
  | cons x l ih => exact insert_sorted x ih

theorem sort_eq {l l' : List Int} (h : l.Perm l') : sort l = sort l' := by
  have hp : (sort l).Perm (sort l') := (sort_perm l).trans (h.trans (sort_perm l').symm)
  exact hp.eq_of_pairwise (fun a b _ _ h1 h2 => by omega) (sort_sorted l) (sort_sorted l')

theorem rank_of_sorted {l : List Int} (h : l.Pairwise (· ≤ ·)) {k : Nat} (hk : k < l.length) :
    HasRank l k l[k] := by
  refine ⟨List.getElem_mem hk, ?_, ?_⟩
  · have hsplit := List.take_append_drop k l
    have hd : (l.drop k).countP (fun x => decide (x < l[k])) = 0 := by
      apply List.countP_eq_zero.2
      intro x hx
      obtain ⟨i, hi, rfl⟩ := List.getElem_of_mem hx
      simp only [List.getElem_drop, decide_eq_true_eq, Int.not_lt]
      by_cases e : i = 0
      · subst e; simp
      · exact List.pairwise_iff_getElem.1 h k (k + i) hk (by simp at hi; omega) (by omega)
    have he : l.countP (fun x => decide (x < l[k])) =
        (l.take k).countP (fun x => decide (x < l[k])) + (l.drop k).countP (fun x => decide (x < l[k])) := by
      rw [← List.countP_append, hsplit]
    have := List.countP_le_length (p := fun x => decide (x < l[k])) (l := l.take k)
    simp at this
    omega
  · have hsplit := List.take_append_drop (k + 1) l
    have ht : (l.take (k + 1)).countP (fun x => decide (x ≤ l[k])) = k + 1 := by
      rw [List.countP_eq_length.2]
      · simp; omega
      · intro x hx
        obtain ⟨i, hi, rfl⟩ := List.getElem_of_mem hx
        simp only [List.getElem_take, decide_eq_true_eq]
        simp at hi
        by_cases e : i = k
        · subst e; exact Int.le_refl _
        · exact List.pairwise_iff_getElem.1 h i k (by omega) hk (by omega)
    have : l.countP (fun x => decide (x ≤ l[k])) =
        (l.take (k + 1)).countP (fun x => decide (x ≤ l[k])) + (l.drop (k + 1)).countP (fun x => decide (x ≤ l[k])) := by
      rw [← List.countP_append, hsplit]
    omega

theorem hasRank_perm {l l' : List Int} (h : l.Perm l') {k : Nat} {v : Int} (hr : HasRank l k v) : HasRank l' k v :=
  ⟨h.mem_iff.1 hr.1, by rw [← h.countP_eq]; exact hr.2.1, by rw [← h.countP_eq]; exact hr.2.2⟩

/-! ### Percentile indices -/

/-- The spacing of doubles around `P · 2^-53`. -/
def spacing (P : Nat) : Nat := 2 ^ (Nat.log2 P + 1 - 53)

theorem spacing_pos (P : Nat) : 0 < spacing P := Nat.two_pow_pos _

theorem spacing_le {P : Nat} (h : 0 < P) : spacing P = 1 ∨ 2 ^ 52 * spacing P ≤ P := by
  unfold spacing
  by_cases hb : Nat.log2 P + 1 ≤ 53
  · left
    rw [show Nat.log2 P + 1 - 53 = 0 by omega]
  · right
    rw [← Nat.pow_add, show 52 + (Nat.log2 P + 1 - 53) = Nat.log2 P by omega]
    exact Nat.log2_self_le (by omega)

theorem lt_spacing {P : Nat} : P < 2 ^ 53 * spacing P := by
  unfold spacing
  rw [← Nat.pow_add]
  have h := @Nat.lt_log2_self P
  exact Nat.lt_of_lt_of_le h (Nat.pow_le_pow_right (by decide) (by omega))

/-- Rounding goes down or up to a multiple of the spacing, whichever is nearer. -/
theorem roundDouble_cases (P : Nat) :
    (roundDouble P = P / spacing P * spacing P + spacing P ∧ spacing P ≤ 2 * (P % spacing P)) ∨
    (roundDouble P = P / spacing P * spacing P ∧ 2 * (P % spacing P) ≤ spacing P) := by
  have h : roundDouble P = if 2 * (P % spacing P) > spacing P ∨
      (2 * (P % spacing P) = spacing P ∧ P / spacing P % 2 = 1) then (P / spacing P + 1) * spacing P
      else P / spacing P * spacing P := rfl
  rw [h]
  by_cases hc : 2 * (P % spacing P) > spacing P ∨ (2 * (P % spacing P) = spacing P ∧ P / spacing P % 2 = 1)
  · rw [if_pos hc, Nat.add_mul, Nat.one_mul]
    left
    refine ⟨rfl, ?_⟩
    rcases hc with hc | hc
    · exact Nat.le_of_lt hc
    · exact Nat.le_of_eq hc.1.symm
  · rw [if_neg hc]
    right
    rw [not_or] at hc
    exact ⟨rfl, Nat.le_of_not_lt hc.1⟩

theorem roundDouble_near (P : Nat) :
    2 * roundDouble P ≤ 2 * P + spacing P ∧ 2 * P ≤ 2 * roundDouble P + spacing P := by
  have hdiv := Nat.div_add_mod P (spacing P)
  have hlt := Nat.mod_lt P (spacing_pos P)
  have h := roundDouble_cases P
  rw [Nat.mul_comm (P / spacing P)] at h
  generalize spacing P * (P / spacing P) = A at *
  omega

/-- A multiple of the spacing that is less than half a spacing above `P` is not above the rounded
value. -/
theorem roundDouble_ge {P y : Nat} (h : 2 * (y * spacing P) < 2 * P + spacing P) : y * spacing P ≤ roundDouble P := by
  have hdiv := Nat.div_add_mod P (spacing P)
  have hlt := Nat.mod_lt P (spacing_pos P)
  have hc := roundDouble_cases P
  rw [Nat.mul_comm (P / spacing P)] at hc
  have key : y ≤ P / spacing P ∨ P / spacing P + 1 = y ∨ P / spacing P + 2 ≤ y := by omega
  rcases key with hy | hy | hy
  · have := Nat.mul_le_mul_right (spacing P) hy
    rw [Nat.mul_comm (P / spacing P)] at this
    omega
  · have : y * spacing P = spacing P * (P / spacing P) + spacing P := by
      rw [← hy, Nat.add_mul, Nat.one_mul, Nat.mul_comm]
    omega
  · have := Nat.mul_le_mul_right (spacing P) hy
    rw [Nat.add_mul, Nat.mul_comm (P / spacing P)] at this
    omega

/-- The index is the exact quotient, for a constant close to `p / q`. -/
theorem indexOf_exact {N m p q : Nat} (hN : 0 < N) (hN2 : N ≤ 2 ^ 42) (hq : 0 < q) (hq2 : q ≤ 1000)
    (hm : m < 2 ^ 53) (hm2 : 2 ^ 52 ≤ m)
    (hclose : 10 * (q * m) ≤ 10 * (p * 2 ^ 53) + 4 * q ∧ 10 * (p * 2 ^ 53) ≤ 10 * (q * m) + q) :
    indexOf N m = N * p / q := by
  have hP : 0 < N * m := Nat.mul_pos hN (by omega)
  obtain ⟨near1, near2⟩ := roundDouble_near (N * m)
  -- the spacing is small
  have hs : spacing (N * m) ≤ 2 * N := by
    rcases spacing_le hP with h | h
    · omega
    · have h2 : N * m ≤ N * 2 ^ 53 := Nat.mul_le_mul_left N (Nat.le_of_lt hm)
      have h3 : 2 ^ 52 * spacing (N * m) ≤ 2 ^ 52 * (2 * N) := by
        refine Nat.le_trans h (Nat.le_trans h2 ?_)
        rw [Nat.mul_comm N]
        omega
      exact Nat.le_of_mul_le_mul_left h3 (by decide)
  -- products
  have e1 : N * (10 * (q * m)) ≤ N * (10 * (p * 2 ^ 53) + 4 * q) := Nat.mul_le_mul_left N hclose.1
  have e2 : N * (10 * (p * 2 ^ 53)) ≤ N * (10 * (q * m) + q) := Nat.mul_le_mul_left N hclose.2
  have f1 : N * (10 * (q * m)) = 10 * (q * (N * m)) := by
    rw [Nat.mul_left_comm, Nat.mul_left_comm N q m]
  have f2 : N * (10 * (p * 2 ^ 53)) = 10 * ((N * p) * 2 ^ 53) := by
    rw [Nat.mul_left_comm, ← Nat.mul_assoc N p]
  rw [Nat.mul_add, f1, f2] at e1
  rw [Nat.mul_add, f1, f2] at e2
  have f3 : N * (4 * q) = 4 * (q * N) := by rw [Nat.mul_left_comm, Nat.mul_comm N q]
  rw [f3] at e1
  rw [Nat.mul_comm N q] at e2
  have hqN : q * N ≤ 1000 * 2 ^ 42 := Nat.mul_le_mul hq2 hN2
  -- quotient
  have hdiv := Nat.div_add_mod (N * p) q
  have hmod := Nat.mod_lt (N * p) hq
  -- scaled rounding
  have g1 : q * (2 * roundDouble (N * m)) ≤ q * (2 * (N * m) + spacing (N * m)) := Nat.mul_le_mul_left q near1
  have g2 : q * (2 * (N * m)) ≤ q * (2 * roundDouble (N * m) + spacing (N * m)) := Nat.mul_le_mul_left q near2
  have g3 : q * spacing (N * m) ≤ q * (2 * N) := Nat.mul_le_mul_left q hs
  rw [Nat.mul_add, Nat.mul_left_comm, Nat.mul_left_comm q 2] at g1
  rw [Nat.mul_add, Nat.mul_left_comm, Nat.mul_left_comm q 2] at g2
  rw [Nat.mul_left_comm] at g3
  unfold indexOf
  -- lower bound
  have lower : N * p / q * 2 ^ 53 ≤ roundDouble (N * m) := by
    by_cases hz : N * p % q = 0
    · -- exact multiple
      have hpow : ∃ t, 2 ^ 53 = t * spacing (N * m) := by
        have : Nat.log2 (N * m) + 1 - 53 ≤ 53 := by
          have h1 : 2 ^ (Nat.log2 (N * m) + 1 - 53) ≤ 2 ^ 43 := by
            have : spacing (N * m) ≤ 2 ^ 43 := by omega
            exact this
          have := (Nat.pow_le_pow_iff_right (a := 2) (by decide)).1 h1
          omega
        refine ⟨2 ^ (53 - (Nat.log2 (N * m) + 1 - 53)), ?_⟩
        unfold spacing
        rw [← Nat.pow_add, Nat.sub_add_cancel this]
      obtain ⟨t, ht⟩ := hpow
      rw [ht, ← Nat.mul_assoc]
      apply roundDouble_ge
      rw [Nat.mul_assoc, ← ht]
      -- q * K * 2^53 = N p 2^53 ≤ q N m + q N / 10, and N < 2 * spacing
      have hN3 : N < 2 * spacing (N * m) := by
        have h1 := @lt_spacing (N * m)
        have h2 : N * 2 ^ 52 ≤ N * m := Nat.mul_le_mul_left N hm2
        omega
      have hk : q * (N * p / q) = N * p := by omega
      have hqK : 10 * (q * (N * p / q * 2 ^ 53)) ≤ 10 * (q * (N * m)) + q * N := by
        rw [← Nat.mul_assoc q, hk]
        exact e2
      have hqS : q * N < q * (2 * spacing (N * m)) := Nat.mul_lt_mul_of_pos_left hN3 hq
      have : q * (2 * (N * p / q * 2 ^ 53)) < q * (2 * (N * m) + spacing (N * m)) := by
        rw [Nat.mul_left_comm q 2] at hqS ⊢
        rw [Nat.mul_add, Nat.mul_left_comm q 2]
        omega
      exact Nat.lt_of_mul_lt_mul_left this
    · have : q * (N * p / q * 2 ^ 53) ≤ q * roundDouble (N * m) := by
        rw [← Nat.mul_assoc q]
        generalize q * (N * p / q) = A at *
        omega
      exact Nat.le_of_mul_le_mul_left this hq
  have upper : roundDouble (N * m) < (N * p / q + 1) * 2 ^ 53 := by
    have : q * roundDouble (N * m) < q * ((N * p / q + 1) * 2 ^ 53) := by
      rw [← Nat.mul_assoc q, Nat.mul_add q]
      generalize q * (N * p / q) = A at *
      omega
    exact Nat.lt_of_mul_lt_mul_left this
  apply Nat.div_eq_of_lt_le
  · exact lower
  · exact upper

/-- The rounded value is within `N` of the exact one. -/
theorem round_bounds {N m : Nat} (hN : 0 < N) (hm : m < 2 ^ 53) (hm2 : 0 < m) :
    roundDouble (N * m) ≤ N * m + N ∧ N * m ≤ roundDouble (N * m) + N := by
  obtain ⟨near1, near2⟩ := roundDouble_near (N * m)
  have hP : 0 < N * m := Nat.mul_pos hN hm2
  have hs : spacing (N * m) ≤ 2 * N := by
    rcases spacing_le hP with h | h
    · omega
    · have h2 : N * m ≤ N * 2 ^ 53 := Nat.mul_le_mul_left N (Nat.le_of_lt hm)
      have h3 : 2 ^ 52 * spacing (N * m) ≤ 2 ^ 52 * (2 * N) := by
        refine Nat.le_trans h (Nat.le_trans h2 ?_)
        rw [Nat.mul_comm N]
        omega
      exact Nat.le_of_mul_le_mul_left h3 (by decide)
  omega

theorem indexOf_lt {N m : Nat} (hN : 0 < N) (hm : m + 1 < 2 ^ 53) (hm2 : 0 < m) : indexOf N m < N := by
  have h := (round_bounds hN (by omega) hm2).1
  unfold indexOf
  apply Nat.div_lt_of_lt_mul
  have : N * (m + 1) < N * 2 ^ 53 := Nat.mul_lt_mul_of_pos_left hm hN
  rw [Nat.mul_add, Nat.mul_one] at this
  omega

theorem indexOf_mono {N m m' : Nat} (hN : 0 < N) (hm : m + 2 ≤ m') (hm' : m' < 2 ^ 53) (hm2 : 0 < m) :
    indexOf N m ≤ indexOf N m' := by
  have h1 := (round_bounds hN (show m < 2 ^ 53 by omega) hm2).1
  have h2 := (round_bounds hN hm' (by omega)).2
  have : N * (m + 2) ≤ N * m' := Nat.mul_le_mul_left N hm
  rw [Nat.mul_add] at this
  exact Nat.div_le_div_right (by omega)

end Distbench.Summary
