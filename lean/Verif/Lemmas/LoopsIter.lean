import Verif.Lemmas.Iterations
import Verif.Lemmas.WholeTime
import Verif.Model.Loops

/-! What the iterations of an action that is never cancelled look like from outside. -/

namespace Distbench.Iterations
open Spec

/-- The invariant of an action that is not an activity, and was not cancelled. -/
structure Good (p : Params) (s : State) : Prop where
  live : s.canceled = false
  quiet : p.activity = false
  shape : (p.openLoop = false ∧ Closed p s ∧ Window p s ∧ p.copies ≤ s.next ∧ 0 < p.copies) ∨
    (p.openLoop = true ∧ Open p s)
  small : s.next < 2 ^ 31
  first : 0 < p.limit
  later : p.openLoop = true → s.nextTime = .future → 0 < s.next ∧ p.timeLimit ≠ .future

theorem small_work {p : Params} {s s' : State} (h : Work p s s') (hn : s.next < 2 ^ 31) : s'.next < 2 ^ 31 := by
  cases h with
  | @locked l1 l2 k b next finished d h1 h2 h3 =>
    obtain ⟨g1, g2, g3, g4, g5⟩ := finishLocked_some h3
    have := g3.2
    cases d <;> exact this
  | tick gap _ _ _ _ _ h6 => exact h6.2
  | _ => exact hn

theorem tick_future {p : Params} {s : State} {gap : Int} (h : (openTick p gap s).1 = .future) :
    s.nextTime = .future ∨ p.timeLimit ≠ .future := by
  unfold openTick at h
  dsimp only at h
  split at h
  · rename_i hl
    right
    intro he
    rw [he] at hl
    simp [Time.lt] at hl
  · left
    cases hn : s.nextTime with
    | future => rfl
    | past => rw [hn] at h; cases h
    | «at» t => rw [hn] at h; cases h

theorem later_work {p : Params} {s s' : State} (h : Work p s s') (hb : 0 ≤ s.next)
    (hl : p.openLoop = true → s.nextTime = .future → 0 < s.next ∧ p.timeLimit ≠ .future) :
    p.openLoop = true → s'.nextTime = .future → 0 < s'.next ∧ p.timeLimit ≠ .future := by
  cases h with
  | @locked l1 l2 k b next finished d h1 h2 h3 =>
    obtain ⟨g1, g2, g3, g4, g5⟩ := finishLocked_some h3
    intro ho hf
    have hf : s.nextTime = .future := by cases d <;> exact hf
    obtain ⟨q1, q2⟩ := hl ho hf
    have : 0 < next := by rw [g4, ho]; simpa using q1
    refine ⟨?_, q2⟩
    cases d <;> exact this
  | tick gap _ ho ht _ _ h6 =>
    intro _ hf
    refine ⟨by simp only [startIteration]; omega, ?_⟩
    rcases tick_future hf with h | h
    · exact (hl ho h).2
    · exact h
  | _ => exact hl

theorem Good.nonneg {p : Params} {s : State} (hg : Good p s) : 0 ≤ s.next := by
  rcases hg.shape with ⟨-, h, -⟩ | ⟨-, h⟩
  · have h1 := h.book.nonneg
    have h2 := h.pend
    have h3 := h.issued
    omega
  · have h1 := h.book.nonneg
    have h2 := h.pend
    omega

theorem copies_work {p : Params} {s s' : State} (h : Work p s s') (hn : p.copies ≤ s.next) :
    p.copies ≤ s'.next := by
  cases h with
  | @locked l1 l2 k b next finished d h1 h2 h3 =>
    obtain ⟨g1, g2, g3, g4, g5⟩ := finishLocked_some h3
    have : p.copies ≤ next := by rw [g4]; split <;> omega
    cases d <;> exact this
  | tick gap => simp only [startIteration]; omega
  | _ => exact hn

theorem good_work {p : Params} {s s' : State} (hg : Good p s) (h : Work p s s') : Good p s' := by
  refine ⟨by rw [work_canceled h]; exact hg.live, hg.quiet, ?_, small_work h hg.small, hg.first,
    later_work h hg.nonneg hg.later⟩
  rcases hg.shape with ⟨ho, h1, h2, h3, h4⟩ | ⟨ho, h1⟩
  · exact .inl ⟨ho, closed_work ho hg.quiet h1 h, window_work ho hg.quiet h2 h, copies_work h h3, h4⟩
  · exact .inr ⟨ho, open_work ho h1 h⟩

theorem good_idle {p : Params} {s s' : State} (hg : Good p s) (h : Idle p s s') (hc : s'.canceled = false) :
    Good p s' := by
  refine ⟨hc, hg.quiet, ?_, by rw [(idle_frame h).2.2.2.1]; exact hg.small, hg.first, ?_⟩
  rotate_left
  · intro ho hf
    rw [(idle_frame h).2.2.2.1]
    cases h with
    | tick gap _ _ _ _ h5 =>
      have hn : s.next ≥ p.limit := by
        unfold openTick at h5
        dsimp only at h5
        split at h5
        · assumption
        · cases h5
      have := hg.first
      refine ⟨by omega, ?_⟩
      rcases tick_future hf with h | h
      · exact (hg.later ho h).2
      · exact h
    | _ => exact hg.later ho hf
  rcases hg.shape with ⟨ho, h1, h2, h3, h4⟩ | ⟨ho, h1⟩
  · exact .inl ⟨ho, closed_idle ho h1 h, window_idle ho h2 h, by rw [(idle_frame h).2.2.2.1]; exact h3, h4⟩
  · exact .inr ⟨ho, open_idle h1 h⟩

theorem Good.book {p : Params} {s : State} (hg : Good p s) : Book s := by
  rcases hg.shape with ⟨-, h, -⟩ | ⟨-, h⟩ <;> exact h.book

/-- The numbers of running iterations. -/
def running : List Thread → List Int
  | [] => []
  | .running k :: r => k :: running r
  | _ :: r => running r

theorem running_length (l : List Thread) : (running l).length = runs l := by
  induction l with
  | nil => rfl
  | cons t l ih => cases t <;> simp [running, runs, ih] <;> omega

theorem running_mem {l : List Thread} {k : Int} (h : 0 < runsOf k l) : k ∈ running l := by
  induction l with
  | nil => simp [runsOf] at h
  | cons t l ih =>
    cases t with
    | running j =>
      simp only [runsOf] at h
      by_cases hj : j = k
      · simp [running, hj]
      · rw [if_neg hj] at h
        exact List.mem_cons_of_mem _ (ih (by omega))
    | _ => exact ih h

/-- The beginning of an iteration. -/
theorem good_started {p : Params} {s s' : State} {n t : Int} {b : Bool} (hg : Good p s) (h : Work p s s')
    (hl : s'.log = .started n b t :: s.log) :
    0 ≤ n ∧ starts n s.log = 0 ∧ (allStarts s.log : Int) < p.limit ∧ reports s.log = 0 ∧
    (runs s.threads : Int) < if p.openLoop then p.limit else p.copies := by
  have hg' := good_work hg h
  have hb := hg.book
  have hb' := hg'.book
  have e1 : starts n s'.log = starts n s.log + 1 := by rw [hl]; simp [starts]; omega
  have e2 : allStarts s'.log = allStarts s.log + 1 := by rw [hl]; simp [allStarts]; omega
  have e3 : reports s'.log = reports s.log := by rw [hl]; simp [reports]
  have e4 : allEnds s'.log = allEnds s.log := by rw [hl]; simp [allEnds]
  have r1 := hb.run
  have r2 := hb'.run
  rcases hg'.shape with ⟨ho, h1, h2, h3, h4⟩ | ⟨ho, h1⟩
  · have hn := h1.num n
    have hp := h1.pend
    have ht := h1.total
    have hc := (h1.call h4).2
    have hw := h2.pend
    have hlim := h1.lim
    have hi := h1.issued
    rw [ho]
    simp only [Bool.false_eq_true, if_false]
    refine ⟨?_, ?_, by omega, ?_, by omega⟩
    · split at hn <;> split at hn <;> omega
    · split at hn <;> split at hn <;> omega
    · have := hc (by omega)
      omega
  · have hn := h1.num n
    have hp := h1.pend
    have ht := h1.total
    have hc := (h1.call hg'.live).2
    have hlim := h1.lim
    have hnn := hb'.nonneg
    rw [ho]
    simp only [if_true]
    refine ⟨?_, ?_, by omega, ?_, by omega⟩
    · split at hn <;> omega
    · split at hn <;> omega
    · have := hc (fun hx => by have := hx.2.1; omega)
      omega

/-- No more iterations begin than there may be. -/
theorem good_bound {p : Params} {s : State} (hg : Good p s) : allStarts s.log ≤ p.limit.toNat := by
  have r1 := hg.book.run
  have hnn := hg.book.nonneg
  rcases hg.shape with ⟨ho, h1, h2, h3, h4⟩ | ⟨ho, h1⟩
  · have hp := h1.pend
    have ht := h1.total
    have hlim := h1.lim
    have hi := h1.issued
    omega
  · have hp := h1.pend
    have ht := h1.total
    have hlim := h1.lim
    omega

/-- An action that has reported that it is done. -/
theorem good_reported {p : Params} {s : State} (hg : Good p s) (hr : 0 < reports s.log) :
    reports s.log = 1 ∧ runs s.threads = 0 ∧
    (p.timeLimit = .future → (allStarts s.log : Int) = p.limit) ∧
    (if p.openLoop then 1 else p.copies) ≤ (allStarts s.log : Int) := by
  have r2 := hg.book.run
  rcases hg.shape with ⟨ho, h1, h2, h3, h4⟩ | ⟨ho, h1⟩
  · have hp := h1.pend
    have ht := h1.total
    have hc := h1.call h4
    have hi := h1.issued
    have heq : s.next = s.finished := by
      apply Classical.byContradiction
      intro hne
      have := hc.2 hne
      omega
    have := hc.1 heq
    rw [ho]
    simp only [Bool.false_eq_true, if_false]
    refine ⟨by omega, by omega, ?_, by omega⟩
    intro hf
    rcases h2.full hg.live hf with hx | hx
    · omega
    · omega
  · have hp := h1.pend
    have ht := h1.total
    have hc := h1.call hg.live
    have heq : Over p s ∧ s.next = s.finished ∧ 0 < s.next := by
      apply Classical.byContradiction
      intro hne
      have := hc.2 hne
      omega
    have := hc.1 heq
    obtain ⟨g1, g2, g3⟩ := heq
    rw [ho]
    simp only [if_true]
    refine ⟨by omega, by omega, ?_, by omega⟩
    intro hf
    rcases g1 with g1 | g1
    · omega
    · rw [hf] at g1
      simp [Time.lt] at g1

/-- The report that an action is done. -/
theorem good_done {p : Params} {s s' : State} (hg : Good p s) (h : Work p s s')
    (hl : s'.log = .allDone :: s.log) :
    reports s.log = 0 ∧ runs s.threads = 0 ∧
    (p.timeLimit = .future → (allStarts s.log : Int) = p.limit) ∧
    (if p.openLoop then 1 else p.copies) ≤ (allStarts s.log : Int) := by
  have hg' := good_work hg h
  have r1 := hg.book.run
  have r2 := hg'.book.run
  have e2 : allStarts s'.log = allStarts s.log := by rw [hl]; simp [allStarts]
  have e3 : reports s'.log = reports s.log + 1 := by rw [hl]; simp [reports]; omega
  have e4 : allEnds s'.log = allEnds s.log := by rw [hl]; simp [allEnds]
  obtain ⟨h1, h2, h3, h4⟩ := good_reported hg' (by omega)
  rw [e2] at h3 h4
  exact ⟨by omega, by omega, h3, h4⟩

/-- Where in the order of the beginnings the iteration `n` is. -/
def place (n : Int) : List Event → Nat
  | [] => 0
  | .started k _ _ :: rest => if k = n then allStarts rest else place n rest
  | _ :: rest => place n rest

theorem place_started {n m t : Int} {b : Bool} {log : List Event} (h : 0 < starts n log) (h0 : starts m log = 0) :
    place n (.started m b t :: log) = place n log := by
  have : m ≠ n := by rintro rfl; omega
  simp only [place, if_neg this]

end Distbench.Iterations
