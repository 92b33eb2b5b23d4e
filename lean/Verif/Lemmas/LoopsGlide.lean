import Verif.Lemmas.LoopsIter

/-! The iterations of an action that is not done can always go on. -/

namespace Distbench.Iterations
open Spec

/-- Iterations end, threads do their bookkeeping, and time passes. -/
inductive Glide (p : Params) : State → State → Prop where
  | refl {s} : Glide p s s
  | work {s s1 s'} : Work p s s1 → (s1.log = s.log ∨ ∃ n, s1.log = .ended n :: s.log) →
      s1.overflow = false → Glide p s1 s' → Glide p s s'
  | idle {s s1 s'} : Idle p s s1 → s1.canceled = s.canceled → Glide p s1 s' → Glide p s s'

/-- An iteration begins, or the action reports that it is done. -/
def Event' (s s' : State) : Prop :=
  (∃ n b t, s'.log = .started n b t :: s.log) ∨ s'.log = .allDone :: s.log

/-- The numbers of iterations stay in the range of an `int`. -/
def Fits (p : Params) (s : State) : Prop :=
  p.limit < 2 ^ 31 ∨ (p.openLoop = false ∧ Time.lt p.timeLimit (.at s.now) = true)

theorem good_clean {p : Params} {s : State} (hg : Good p s) (k : Int) : .read k true ∉ s.threads := by
  rcases hg.shape with ⟨-, -, h, -⟩ | ⟨-, h⟩
  · exact h.clean hg.live k
  · exact h.clean hg.live k

theorem pending {p : Params} {s : State} (hg : Good p s) :
    s.finished + (runs s.threads + reads s.threads : Nat) ≤ s.next ∧ s.next ≤ p.limit := by
  rcases hg.shape with ⟨-, h, -⟩ | ⟨-, h⟩
  · have h1 := h.pend
    have h2 := h.issued
    exact ⟨by omega, h.lim⟩
  · have h1 := h.pend
    exact ⟨by omega, h.lim⟩

theorem locked_fits {p : Params} {s : State} {k : Int} {rest : List Thread} (hg : Good p s) (hf : Fits p s)
    (ht : s.threads = .read k false :: rest) : ∃ r, finishLocked p false s = some r := by
  cases h : finishLocked p false s with
  | some r => exact ⟨r, rfl⟩
  | none =>
    exfalso
    obtain ⟨h1, h2⟩ := pending hg
    have h3 := hg.small
    have h4 := hg.book.nonneg
    rw [ht] at h1
    simp only [runs, reads] at h1
    rcases finishLocked_none h with h5 | h5
    · exact h5 ⟨by omega, by omega⟩
    · apply h5
      split
      · rename_i hd
        simp only [Bool.and_eq_true, Bool.not_eq_true'] at hd
        obtain ⟨hd, ho⟩ := hd
        unfold isDone at hd
        rw [ho] at hd
        simp only [Bool.false_or, Bool.not_false, if_true] at hd
        split at hd
        · cases hd
        · rcases hf with hf | ⟨-, hf⟩
          · exact ⟨by omega, by omega⟩
          · rw [hf] at hd; cases hd
      · exact ⟨by omega, by omega⟩

theorem drive_aux {p : Params} (n : Nat) : ∀ s, 2 * runs s.threads + reads s.threads ≤ n → Good p s →
    s.overflow = false → reports s.log = 0 → Fits p s →
    ∃ s1 s2, Glide p s s1 ∧ Work p s1 s2 ∧ s2.overflow = false ∧ Event' s1 s2 := by
  induction n with
  | zero => ?_
  | succ n ih => ?_
  all_goals
    intro s hn hg ho hr hf
    cases ht : s.threads with
    | nil =>
      rcases hg.shape with ⟨hop, h1, h2, h3, h4⟩ | ⟨hop, h1⟩
      · by_cases hi : s.issued < p.copies
        · exact ⟨s, _, .refl, .issue ho hop hi (fun h => by rw [hg.quiet] at h; cases h), ho, .inl ⟨_, _, _, rfl⟩⟩
        · exfalso
          have hp := h1.pend
          have hi' := h1.issued
          rw [ht] at hp
          simp only [runs, reads, restarts] at hp
          have := (h1.call h4).1 (by omega)
          rw [ht] at this
          simp only [calls] at this
          omega
      · have hlim : p.limit < 2 ^ 31 := by
          rcases hf with hf | ⟨hf, -⟩
          · exact hf
          · rw [hop] at hf; cases hf
        have hp := h1.pend
        rw [ht] at hp
        simp only [runs, reads] at hp
        have hnot : ¬ (Over p s ∧ 0 < s.next) := by
          rintro ⟨q1, q2⟩
          have := (h1.call hg.live).1 ⟨q1, by omega, q2⟩
          rw [ht] at this
          simp only [calls] at this
          omega
        have hl := h1.lim
        have hnn := hg.nonneg
        have hfst := hg.first
        have hlt : s.next < p.limit := by
          apply Classical.byContradiction
          intro hge
          exact hnot ⟨.inl (by omega), by omega⟩
        have hnf : s.nextTime ≠ .future := by
          intro he
          obtain ⟨q1, q2⟩ := hg.later hop he
          refine hnot ⟨.inr ?_, q1⟩
          rw [he]
          cases hT : p.timeLimit with
          | future => exact absurd hT q2
          | _ => rfl
        obtain ⟨now, hnow, hlt'⟩ : ∃ now, s.now ≤ now ∧ Time.lt s.nextTime (.at now) = true := by
          cases hnt : s.nextTime with
          | future => exact absurd hnt hnf
          | past => exact ⟨s.now, Int.le_refl _, rfl⟩
          | «at» t =>
            refine ⟨max s.now (t + 1), Int.le_max_left _ _, ?_⟩
            have := Int.le_max_right s.now (t + 1)
            simp only [Time.lt, decide_eq_true_eq]
            omega
        refine ⟨{ s with now := now }, _, .idle (.time now hnow) rfl .refl,
          .tick (k := s.next) (if p.exponential then 0 else p.periodNs) ho hop hlt' ?_ ?_ ⟨?_, ?_⟩, ho,
          .inl ⟨_, _, _, rfl⟩⟩
        · cases p.exponential <;> simp
        · unfold openTick
          dsimp only
          rw [if_neg (by omega)]
        · show -2 ^ 31 ≤ s.next + 1; omega
        · show s.next + 1 < 2 ^ 31; omega
    | cons t rest =>
      cases t with
      | restart k => exact ⟨s, _, .refl, .restart (l1 := []) ho ht, ho, .inl ⟨_, _, _, rfl⟩⟩
      | calling => exact ⟨s, _, .refl, .allDone (l1 := []) ho ht, ho, .inr rfl⟩
      | running k =>
        rw [ht] at hn
        simp only [runs, reads] at hn
        first
        | omega
        | have hw : Work p s _ := .complete (l1 := []) ho ht
          obtain ⟨s1, s2, g1, g2, g3, g4⟩ := ih _ (by simp only [List.nil_append, runs, reads]; omega)
            (good_work hg hw) ho hr hf
          exact ⟨s1, s2, .work hw (.inr ⟨k, rfl⟩) ho g1, g2, g3, g4⟩
      | read k b =>
        have hb : b = false := by
          cases b with
          | false => rfl
          | true => exact absurd (by rw [ht]; exact List.mem_cons_self) (good_clean hg k)
        subst hb
        obtain ⟨⟨next, finished, d⟩, hl⟩ := locked_fits hg hf ht
        have hw : Work p s _ := .locked (l1 := []) ho ht hl
        rw [ht] at hn
        simp only [runs, reads] at hn
        first
        | omega
        | cases d with
          | allDone => exact ⟨_, _, .work hw (.inl rfl) ho .refl, .allDone (l1 := []) ho rfl, ho, .inr rfl⟩
          | restart k => exact ⟨_, _, .work hw (.inl rfl) ho .refl, .restart (l1 := []) ho rfl, ho, .inl ⟨_, _, _, rfl⟩⟩
          | free =>
            obtain ⟨s1, s2, g1, g2, g3, g4⟩ := ih _ (by simp only [leave, List.nil_append]; omega)
              (good_work hg hw) ho hr hf
            exact ⟨s1, s2, .work hw (.inl rfl) ho g1, g2, g3, g4⟩

/-- The iterations of an action that has not reported that it is done can go on, until one begins or the
action reports that it is done. -/
theorem drive {p : Params} {s : State} (hg : Good p s) (ho : s.overflow = false) (hr : reports s.log = 0)
    (hf : p.limit < 2 ^ 31 ∨ (p.openLoop = false ∧ p.timeLimit ≠ .future)) :
    ∃ s1 s2, Glide p s s1 ∧ Work p s1 s2 ∧ s2.overflow = false ∧ Event' s1 s2 := by
  rcases hf with hf | ⟨hf, ht⟩
  · exact drive_aux _ s (Nat.le_refl _) hg ho hr (.inl hf)
  · obtain ⟨now, hnow, hlt⟩ : ∃ now, s.now ≤ now ∧ Time.lt p.timeLimit (.at now) = true := by
      cases hT : p.timeLimit with
      | future => exact absurd hT ht
      | past => exact ⟨s.now, Int.le_refl _, rfl⟩
      | «at» t =>
        refine ⟨max s.now (t + 1), Int.le_max_left _ _, ?_⟩
        have := Int.le_max_right s.now (t + 1)
        simp only [Time.lt, decide_eq_true_eq]
        omega
    have hi : Idle p s { s with now := now } := .time now hnow
    obtain ⟨s1, s2, g1, g2, g3, g4⟩ := drive_aux _ { s with now := now } (Nat.le_refl _)
      (good_idle hg hi hg.live) ho hr (.inr ⟨hf, hlt⟩)
    exact ⟨s1, s2, .idle hi rfl g1, g2, g3, g4⟩

end Distbench.Iterations
