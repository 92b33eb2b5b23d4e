import Verif.Spec.Clock

/-! Properties of the waits. -/

namespace Distbench.Clock
open Spec

/-! ### C195: waiting for a condition with a deadline -/

private theorem final_owner (lock : Bool) (deadline : Deadline) (answers : List Answer) :
    ∃ has, ownership lock (!lock) (final deadline answers).1 = some has ∧
      ((final deadline answers).2 ≠ none → has = true) := by
  cases answers with
  | nil => exact ⟨_, rfl, fun h => absurd rfl h⟩
  | cons a rest => exact ⟨true, by simp [final, ownership], fun _ => rfl⟩

private theorem spinning_owner (lock : Bool) (deadline : Deadline) (start : Int) (timeout : Deadline)
    (answers : List Answer) :
    ∃ has, ownership lock (!lock) (spinning lock deadline start timeout answers).1 = some has ∧
      ((spinning lock deadline start timeout answers).2 ≠ none → has = true) := by
  induction answers with
  | nil => exact ⟨_, rfl, fun h => absurd rfl h⟩
  | cons a rest ih =>
    unfold spinning
    by_cases ha : a.holds = true
    · rw [if_pos ha]
      exact ⟨true, by simp [ownership], fun _ => rfl⟩
    · rw [if_neg ha]
      have next : ∃ has, ownership lock (!lock) (if before a.cpu timeout = true
          then spinning lock deadline start timeout rest else final deadline rest).1 = some has ∧
          ((if before a.cpu timeout = true
          then spinning lock deadline start timeout rest else final deadline rest).2 ≠ none →
            has = true) := by
        split
        · exact ih
        · exact final_owner lock deadline rest
      obtain ⟨has, h1, h2⟩ := next
      refine ⟨has, ?_, h2⟩
      cases lock <;> simpa [ownership] using h1

/-- C195: the mutex is used properly: a thread that calls the function without the mutex
(`lock`) or with it has it when the function returns, and never locks a mutex it has, or waits for or
unlocks one it has not. -/
theorem C195_mutex (lock : Bool) (deadline : Deadline) (spin : Bool) (start cpu : Int)
    (answers : List Answer) :
    ∃ has, ownership lock (!lock) (wait lock deadline spin start cpu answers).1 = some has ∧
      ((wait lock deadline spin start cpu answers).2 ≠ none → has = true) := by
  unfold wait
  split
  · exact spinning_owner ..
  · exact final_owner ..

private theorem final_value {deadline : Deadline} {answers : List Answer} {b : Bool}
    (h : (final deadline answers).2 = some b) :
    ∃ a, (final deadline answers).1.getLast? = some (.attempt deadline a) ∧ a.holds = b := by
  cases answers with
  | nil => cases h
  | cons a rest => exact ⟨a, rfl, Option.some.inj h⟩

private theorem spinning_value {lock : Bool} {deadline : Deadline} {start : Int} {timeout : Deadline}
    {answers : List Answer} {b : Bool}
    (h : (spinning lock deadline start timeout answers).2 = some b) :
    ∃ d a, (spinning lock deadline start timeout answers).1.getLast? = some (.attempt d a) ∧
      a.holds = b ∧ (b = false → d = deadline) := by
  induction answers with
  | nil => cases h
  | cons a rest ih =>
    unfold spinning at h ⊢
    by_cases ha : a.holds = true
    · rw [if_pos ha] at h ⊢
      cases h
      exact ⟨_, a, rfl, ha, fun h => by cases h⟩
    · rw [if_neg ha] at h ⊢
      have next : ∃ d a', (if before a.cpu timeout = true
          then spinning lock deadline start timeout rest else final deadline rest).1.getLast? =
          some (.attempt d a') ∧ a'.holds = b ∧ (b = false → d = deadline) := by
        dsimp only at h
        split at h
        · rename_i hb
          rw [if_pos hb]
          exact ih h
        · rename_i hb
          rw [if_neg hb]
          obtain ⟨a', h1, h2⟩ := final_value h
          exact ⟨deadline, a', h1, h2, fun _ => rfl⟩
      obtain ⟨d, a', h1, h2, h3⟩ := next
      refine ⟨d, a', ?_, h2, h3⟩
      dsimp only
      rw [List.getLast?_cons, List.getLast?_append, h1]
      rfl

/-- C195: what is returned is whether the condition holds when the function returns, and false is
returned only when the deadline has passed. -/
theorem C195_value (lock : Bool) (deadline : Deadline) (spin : Bool) (start cpu : Int)
    (answers : List Answer) (b : Bool)
    (hc : MutexContract (wait lock deadline spin start cpu answers).1)
    (h : (wait lock deadline spin start cpu answers).2 = some b) :
    ∃ d a, (wait lock deadline spin start cpu answers).1.getLast? = some (.attempt d a) ∧
      a.holds = b ∧ (b = false → Passed deadline a.now) := by
  have main : ∃ d a, (wait lock deadline spin start cpu answers).1.getLast? = some (.attempt d a) ∧
      a.holds = b ∧ (b = false → d = deadline) := by
    unfold wait at h ⊢
    split at h
    · rename_i hs
      rw [if_pos hs]
      exact spinning_value h
    · rename_i hs
      rw [if_neg hs]
      obtain ⟨a, h1, h2⟩ := final_value h
      exact ⟨deadline, a, h1, h2, fun _ => rfl⟩
  obtain ⟨d, a, h1, h2, h3⟩ := main
  refine ⟨d, a, h1, h2, fun hb => ?_⟩
  have hm := hc d a (List.mem_of_getLast? h1)
  rcases hm with hm | hm
  · rw [h2, hb] at hm
    cases hm
  · rw [← h3 hb]
    exact hm

private theorem spinning_cpu {lock : Bool} {deadline : Deadline} {start t : Int}
    {answers : List Answer}
    (h : (spinning lock deadline start (some t) answers).2 = some false) :
    ∃ d a, .attempt d a ∈ (spinning lock deadline start (some t) answers).1 ∧ t ≤ a.cpu := by
  induction answers with
  | nil => cases h
  | cons a rest ih =>
    unfold spinning at h ⊢
    by_cases ha : a.holds = true
    · rw [if_pos ha] at h
      cases h
    · rw [if_neg ha] at h ⊢
      dsimp only at h ⊢
      by_cases hb : before a.cpu (some t) = true
      · rw [if_pos hb] at h ⊢
        obtain ⟨d, a', h1, h2⟩ := ih h
        exact ⟨d, a', List.mem_cons_of_mem _ (List.mem_append_right _ h1), h2⟩
      · refine ⟨_, a, List.mem_cons_self, ?_⟩
        simp only [before, decide_eq_true_eq] at hb
        omega

/-- C195: a thread that is to spin and returns false has spent at least as much CPU time as there was
until the deadline. -/
theorem C195_spins (lock : Bool) (d start cpu : Int) (answers : List Answer)
    (h : (wait lock (some d) true start cpu answers).2 = some false) :
    ∃ d' a, .attempt d' a ∈ (wait lock (some d) true start cpu answers).1 ∧
      d - start ≤ a.cpu - cpu := by
  unfold wait at h ⊢
  rw [if_pos rfl] at h ⊢
  obtain ⟨d', a, h1, h2⟩ := spinning_cpu h
  refine ⟨d', a, h1, ?_⟩
  dsimp only at h2
  omega

private theorem spinning_forever (lock : Bool) (start : Int) (answers : List Answer) :
    (∀ d a, .attempt d a ∈ (spinning lock none start none answers).1 → d = some start) ∧
    (spinning lock none start none answers).2 ≠ some false := by
  induction answers with
  | nil => exact ⟨fun d a h => by simp [spinning] at h, fun h => by cases h⟩
  | cons a rest ih =>
    unfold spinning
    split
    · refine ⟨fun d b h => ?_, (fun h => by cases h)⟩
      simp only [List.mem_singleton, Op.attempt.injEq] at h
      exact h.1
    · simp only [before, if_true]
      refine ⟨fun d b h => ?_, ih.2⟩
      simp only [List.mem_cons, Op.attempt.injEq, List.mem_append] at h
      rcases h with h | h | h
      · exact h.1
      · cases lock <;> simp at h
      · exact ih.1 d b h

/-- C195: without a deadline a function that is to spin never goes to sleep (all its attempts have a
deadline that has passed), and does not return false. -/
theorem C195_no_deadline (lock : Bool) (start cpu : Int) (answers : List Answer) :
    (∀ d a, .attempt d a ∈ (wait lock none true start cpu answers).1 → d = some start) ∧
    (wait lock none true start cpu answers).2 ≠ some false :=
  spinning_forever lock start answers

private theorem spinning_ends (lock : Bool) (deadline : Deadline) (start t : Int)
    (answers : List Answer) : ∀ cpu, Ticks cpu (answers.map (·.cpu)) →
    (t - cpu).toNat + 2 ≤ answers.length →
    (spinning lock deadline start (some t) answers).2 ≠ none := by
  induction answers with
  | nil => intro _ _ h; exact absurd h (by simp)
  | cons a rest ih =>
    intro cpu ht hl
    unfold spinning
    by_cases ha : a.holds = true
    · rw [if_pos ha]
      exact fun h => by cases h
    · rw [if_neg ha]
      dsimp only
      obtain ⟨h1, h2⟩ := ht
      dsimp only at h1
      rw [List.length_cons] at hl
      by_cases hb : before a.cpu (some t) = true
      · rw [if_pos hb]
        refine ih a.cpu h2 ?_
        simp only [before, decide_eq_true_eq] at hb
        omega
      · rw [if_neg hb]
        cases rest with
        | nil => simp only [List.length_nil] at hl; omega
        | cons a' rest => exact fun h => by cases h

/-- C195: if the CPU clock of the thread goes forward whenever it is read, the function returns after a
bounded number of calls of the mutex. -/
theorem C195_ends (lock : Bool) (d : Int) (spin : Bool) (start cpu : Int) (answers : List Answer)
    (ht : Ticks cpu (answers.map (·.cpu))) (hl : (d - start).toNat + 2 ≤ answers.length) :
    (wait lock (some d) spin start cpu answers).2 ≠ none := by
  unfold wait
  split
  · refine spinning_ends lock _ start _ answers cpu ht ?_
    dsimp only
    omega
  · cases answers with
    | nil => exact absurd hl (by simp)
    | cons a rest => exact fun h => by cases h

/-- C195: once the condition holds when it is looked at, the function returns true at once. -/
theorem C195_at_once (lock : Bool) (deadline : Deadline) (spin : Bool) (start cpu : Int) (a : Answer)
    (rest : List Answer) (ha : a.holds = true) :
    (wait lock deadline spin start cpu (a :: rest)).2 = some true := by
  unfold wait
  split
  · unfold spinning
    rw [if_pos ha]
  · simp only [final, ha]

example : wait true (some 12) true 10 100 [⟨false, 10, 101⟩, ⟨false, 11, 102⟩, ⟨false, 12, 103⟩] =
    ([.attempt (some 10) ⟨false, 10, 101⟩, .unlock, .attempt (some 10) ⟨false, 11, 102⟩, .unlock,
      .attempt (some 12) ⟨false, 12, 103⟩], some false) := rfl

example : MutexContract (wait true (some 12) true 10 100
    [⟨false, 10, 101⟩, ⟨false, 11, 102⟩, ⟨false, 12, 103⟩]).1 := by
  intro d a h
  have : d = some 10 ∧ 10 ≤ a.now ∨ d = some 12 ∧ 12 ≤ a.now := by
    simp only [wait, spinning, final, before] at h
    simp at h
    rcases h with ⟨rfl, rfl⟩ | ⟨rfl, rfl⟩ | ⟨rfl, rfl⟩ <;> simp
  rcases this with ⟨h1, h2⟩ | ⟨h1, h2⟩
  · exact Or.inr ⟨10, h1, h2⟩
  · exact Or.inr ⟨12, h1, h2⟩

example : Ticks 100 [101, 102, 103, 104] := by simp [Ticks]

/-! ### C196: spinning for a duration -/

/-- C196: `SpinFor` returns the first time the CPU clock of the thread shows that it has used the
duration, and not before. -/
theorem C196_spin (duration start now : Int) (clock : List Int) :
    spinFor duration start clock = some now ↔
      ∃ i : Nat, clock[i]? = some now ∧ duration ≤ now - start ∧
        ∀ (j : Nat) (earlier : Int), j < i → clock[j]? = some earlier →
          earlier - start < duration := by
  induction clock with
  | nil => simp [spinFor]
  | cons x rest ih =>
    rw [spinFor]
    by_cases hx : x - start < duration
    · rw [if_pos hx, ih]
      constructor
      · rintro ⟨i, h1, h2, h3⟩
        refine ⟨i + 1, h1, h2, fun j e hj he => ?_⟩
        cases j with
        | zero => cases he; exact hx
        | succ j => exact h3 j e (by omega) he
      · rintro ⟨i, h1, h2, h3⟩
        cases i with
        | zero => cases h1; omega
        | succ i => exact ⟨i, h1, h2, fun j e hj he => h3 (j + 1) e (by omega) he⟩
    · rw [if_neg hx]
      constructor
      · intro h
        cases h
        exact ⟨0, rfl, by omega, fun j e hj => absurd hj (Nat.not_lt_zero _)⟩
      · rintro ⟨i, h1, h2, h3⟩
        cases i with
        | zero => exact h1
        | succ i => exact absurd (h3 0 x (by omega) rfl) hx

/-- C196: if that clock goes forward whenever it is read, `SpinFor` returns. -/
theorem C196_ends (duration start : Int) (clock : List Int) (ht : Ticks start clock)
    (hl : duration.toNat < clock.length) : spinFor duration start clock ≠ none := by
  have main : ∀ (clock : List Int) (last : Int), Ticks last clock →
      (duration - (last - start)).toNat < clock.length → spinFor duration start clock ≠ none := by
    intro clock
    induction clock with
    | nil => intro _ _ h; exact absurd h (by simp)
    | cons x rest ih =>
      intro last ht hl
      obtain ⟨h1, h2⟩ := ht
      rw [spinFor]
      rw [List.length_cons] at hl
      by_cases hx : x - start < duration
      · rw [if_pos hx]
        exact ih x h2 (by omega)
      · rw [if_neg hx]
        exact fun h => by cases h
  exact main clock start ht (by omega)

example : spinFor 5 100 [101, 103, 106, 107] = some 106 := rfl

end Distbench.Clock
