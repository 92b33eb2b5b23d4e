import Verif.Spec.Iterations

/-! Invariants of the iterations of an action. -/

namespace Distbench.Iterations
open Spec

/-- Numbers of threads in each situation. -/
def runs : List Thread → Nat
  | [] => 0
  | .running _ :: r => 1 + runs r
  | _ :: r => runs r

def runsOf (k : Int) : List Thread → Nat
  | [] => 0
  | .running k' :: r => (if k' = k then 1 else 0) + runsOf k r
  | _ :: r => runsOf k r

def reads : List Thread → Nat
  | [] => 0
  | .read _ _ :: r => 1 + reads r
  | _ :: r => reads r

def readsNo : List Thread → Nat
  | [] => 0
  | .read _ false :: r => 1 + readsNo r
  | _ :: r => readsNo r

def restarts : List Thread → Nat
  | [] => 0
  | .restart _ :: r => 1 + restarts r
  | _ :: r => restarts r

def restartsOf (k : Int) : List Thread → Nat
  | [] => 0
  | .restart k' :: r => (if k' = k then 1 else 0) + restartsOf k r
  | _ :: r => restartsOf k r

def calls : List Thread → Nat
  | [] => 0
  | .calling :: r => 1 + calls r
  | _ :: r => calls r

@[simp] theorem runs_append (a b : List Thread) : runs (a ++ b) = runs a + runs b := by
  induction a with
  | nil => simp [runs]
  | cons t a ih => cases t <;> simp [runs, ih] <;> omega

@[simp] theorem runsOf_append (k : Int) (a b : List Thread) :
    runsOf k (a ++ b) = runsOf k a + runsOf k b := by
  induction a with
  | nil => simp [runsOf]
  | cons t a ih => cases t <;> simp [runsOf, ih] <;> omega

@[simp] theorem reads_append (a b : List Thread) : reads (a ++ b) = reads a + reads b := by
  induction a with
  | nil => simp [reads]
  | cons t a ih => cases t <;> simp [reads, ih] <;> omega

@[simp] theorem readsNo_append (a b : List Thread) :
    readsNo (a ++ b) = readsNo a + readsNo b := by
  induction a with
  | nil => simp [readsNo]
  | cons t a ih =>
    cases t with
    | read k c => cases c <;> simp [readsNo, ih] <;> omega
    | _ => simp [readsNo, ih]

@[simp] theorem restarts_append (a b : List Thread) :
    restarts (a ++ b) = restarts a + restarts b := by
  induction a with
  | nil => simp [restarts]
  | cons t a ih => cases t <;> simp [restarts, ih] <;> omega

@[simp] theorem restartsOf_append (k : Int) (a b : List Thread) :
    restartsOf k (a ++ b) = restartsOf k a + restartsOf k b := by
  induction a with
  | nil => simp [restartsOf]
  | cons t a ih => cases t <;> simp [restartsOf, ih] <;> omega

@[simp] theorem calls_append (a b : List Thread) : calls (a ++ b) = calls a + calls b := by
  induction a with
  | nil => simp [calls]
  | cons t a ih => cases t <;> simp [calls, ih] <;> omega

/-- The bookkeeping that holds for every kind of action; `toIssue` of the first iterations have not
been started. -/
structure Book (s : State) : Prop where
  runOf : ∀ k, starts k s.log = ends k s.log + runsOf k s.threads
  run : allStarts s.log = allEnds s.log + runs s.threads
  fin : (allEnds s.log : Int) = s.finished + reads s.threads
  nonneg : 0 ≤ s.finished

theorem finishLocked_some {p : Params} {b : Bool} {s : State} {next finished : Int} {d : Decision}
    (h : finishLocked p b s = some (next, finished, d)) :
    finished = s.finished + 1 ∧ InI32 finished ∧ InI32 next ∧
    next = (if !isDone p b s.now s && !p.openLoop then s.next + 1 else s.next) ∧
    d = (if isDone p b s.now s && next - finished == 0 then .allDone
      else if !p.activity && (!isDone p b s.now s && !p.openLoop) then .restart s.next
      else .free) := by
  unfold finishLocked at h
  obtain ⟨n, hn⟩ : ∃ n, n = (if !isDone p b s.now s && !p.openLoop then s.next + 1 else s.next) :=
    ⟨_, rfl⟩
  simp only [← hn] at h
  split at h
  · simp at h
  · rename_i hi
    injection h with h
    injection h with h1 h2
    injection h2 with h2 h3
    subst h1 h2
    simp only [not_or, Classical.not_not] at hi
    exact ⟨rfl, hi.1, hi.2, hn, h3.symm⟩

theorem finishLocked_none {p : Params} {b : Bool} {s : State} (h : finishLocked p b s = none) :
    ¬ InI32 (s.finished + 1) ∨
    ¬ InI32 (if !isDone p b s.now s && !p.openLoop then s.next + 1 else s.next) := by
  unfold finishLocked at h
  obtain ⟨n, hn⟩ : ∃ n, n = (if !isDone p b s.now s && !p.openLoop then s.next + 1 else s.next) :=
    ⟨_, rfl⟩
  simp only [← hn] at h ⊢
  split at h
  · assumption
  · simp at h

theorem book_work {p : Params} {s s' : State} (hb : Book s) (h : Work p s s') : Book s' := by
  obtain ⟨b1, b2, b3, b4⟩ := hb
  cases h with
  | issue h1 h2 h3 =>
    refine ⟨fun k => ?_, ?_, ?_, b4⟩
    · have := b1 k
      simp only [startIteration, starts, ends, runsOf_append, runsOf]
      split <;> omega
    · simp only [startIteration, allStarts, allEnds, runs_append, runs]; omega
    · simp only [startIteration, allEnds, reads_append, reads]; omega
  | @complete l1 l2 k h1 h2 =>
    rw [h2] at b1 b2 b3
    refine ⟨fun j => ?_, ?_, ?_, b4⟩
    · have := b1 j
      simp only [starts, ends, runsOf_append, runsOf] at this ⊢
      split at this <;> simp_all <;> omega
    · simp only [allStarts, allEnds, runs_append, runs] at b2 ⊢; omega
    · simp only [allEnds, reads_append, reads] at b3 ⊢; omega
  | @locked l1 l2 k b next finished d h1 h2 h3 =>
    rw [h2] at b1 b2 b3
    obtain ⟨g1, -⟩ := finishLocked_some h3
    simp only [runsOf_append, runsOf, runs_append, runs, reads_append, reads] at b1 b2 b3
    cases d <;>
    · refine ⟨fun j => ?_, ?_, ?_, ?_⟩
      · have := b1 j
        simp only [leave, runsOf_append, runsOf]; omega
      · simp only [leave, runs_append, runs]; omega
      · simp only [leave, reads_append, reads]; omega
      · simp only [leave]; omega
  | overflow => exact ⟨b1, b2, b3, b4⟩
  | @restart l1 l2 k h1 h2 =>
    rw [h2] at b1 b2 b3
    simp only [runsOf_append, runsOf, runs_append, runs, reads_append, reads] at b1 b2 b3
    refine ⟨fun j => ?_, ?_, ?_, b4⟩
    · have := b1 j
      simp only [startIteration, starts, ends, runsOf_append, runsOf]; split <;> omega
    · simp only [startIteration, allStarts, allEnds, runs_append, runs]; omega
    · simp only [startIteration, allEnds, reads_append, reads]; omega
  | @allDone l1 l2 h1 h2 =>
    rw [h2] at b1 b2 b3
    simp only [runsOf_append, runsOf, runs_append, runs, reads_append, reads] at b1 b2 b3
    refine ⟨fun j => ?_, ?_, ?_, b4⟩
    · have := b1 j
      simp only [starts, ends, runsOf_append]; omega
    · simp only [allStarts, allEnds, runs_append]; omega
    · simp only [allEnds, reads_append]; omega
  | run h1 h2 h3 h4 h5 =>
    rw [h5] at b1 b2 b3
    simp only [runsOf, runs, reads] at b1 b2 b3
    refine ⟨fun j => ?_, ?_, ?_, b4⟩
    · have := b1 j
      simp only [startIteration, starts, ends, runsOf]; split <;> omega
    · simp only [startIteration, allStarts, allEnds, runs]; omega
    · simp only [startIteration, allEnds, reads]; omega
  | tick gap h1 h2 h3 h4 h5 =>
    refine ⟨fun j => ?_, ?_, ?_, b4⟩
    · have := b1 j
      simp only [startIteration, starts, ends, runsOf_append, runsOf]; split <;> omega
    · simp only [startIteration, allStarts, allEnds, runs_append, runs]; omega
    · simp only [startIteration, allEnds, reads_append, reads]; omega
  | tickOverflow => exact ⟨b1, b2, b3, b4⟩

/-! ### closed loops of iterations that may run on any thread -/

structure Closed (p : Params) (s : State) : Prop where
  book : Book s
  issued : 0 ≤ s.issued ∧ s.issued ≤ p.copies
  pend : s.next - s.finished =
    (p.copies - s.issued) + (runs s.threads + reads s.threads + restarts s.threads : Nat)
  total : (allStarts s.log : Int) + restarts s.threads + (p.copies - s.issued) = s.next
  num : ∀ k, starts k s.log + restartsOf k s.threads +
    (if s.issued ≤ k ∧ k < p.copies then 1 else 0) = if 0 ≤ k ∧ k < s.next then 1 else 0
  call : 0 < p.copies →
    (s.next = s.finished → calls s.threads + reports s.log = 1) ∧
    (s.next ≠ s.finished → calls s.threads + reports s.log = 0)
  lim : s.next ≤ p.limit
  ub : p.limit < 2 ^ 31 → s.overflow = false

theorem closed_work {p : Params} {s s' : State} (ho : p.openLoop = false) (ha : p.activity = false)
    (hi : Closed p s) (h : Work p s s') : Closed p s' := by
  obtain ⟨hb, hx, hp, ht, hn, hc, hl, hu⟩ := hi
  have hb' := book_work hb h
  have hle : (reads s.threads : Int) + s.finished = allEnds s.log := by have := hb.fin; omega
  cases h with
  | issue h1 h2 h3 =>
    refine ⟨hb', ?_, ?_, ?_, ?_, ?_, hl, hu⟩
    · simp only [startIteration]; omega
    · simp only [startIteration, runs_append, reads_append, restarts_append, runs, reads, restarts]
      omega
    · simp only [startIteration, allStarts, restarts_append, restarts]; omega
    · intro k
      have := hn k
      simp only [startIteration, starts, restartsOf_append, restartsOf] at this ⊢
      grind
    · intro h0
      have := hc h0
      simp only [startIteration, calls_append, calls, reports] at this ⊢
      omega
  | @complete l1 l2 k h1 h2 =>
    rw [h2] at hp ht hn hc
    simp only [runs_append, reads_append, restarts_append, restartsOf_append, calls_append, runs, reads,
      restarts, restartsOf, calls] at hp ht hn hc
    refine ⟨hb', hx, ?_, ?_, ?_, ?_, hl, hu⟩
    · simp only [runs_append, reads_append, restarts_append, runs, reads, restarts]; omega
    · simp only [allStarts, restarts_append, restarts]; omega
    · intro j
      simp only [starts, restartsOf_append, restartsOf]; exact hn j
    · intro h0
      simp only [calls_append, calls, reports]; exact hc h0
  | @locked l1 l2 k b next finished d h1 h2 h3 =>
    obtain ⟨g1, g2, g3, g4, g5⟩ := finishLocked_some h3
    rw [h2] at hp ht hn hc
    simp only [runs_append, reads_append, restarts_append, restartsOf_append, calls_append, runs, reads,
      restarts, restartsOf, calls] at hp ht hn hc
    have hpos : s.next - s.finished ≥ 1 := by omega
    by_cases hd : isDone p b s.now s = true
    · rw [hd] at g4 g5
      simp only [Bool.not_true, Bool.false_and, Bool.false_eq_true, if_false, Bool.true_and,
        Bool.and_false] at g4 g5
      by_cases hz : next - finished = 0
      · rw [if_pos (by simp [hz])] at g5
        subst g5 g4
        refine ⟨hb', hx, ?_, ?_, ?_, ?_, hl, hu⟩
        · simp only [leave, runs_append, reads_append, restarts_append, runs, reads, restarts]; omega
        · simp only [leave, restarts_append, restarts]; omega
        · intro j
          simp only [leave, restartsOf_append, restartsOf]; exact hn j
        · intro h0
          have := hc h0
          simp only [leave, calls_append, calls] at this ⊢
          omega
      · rw [if_neg (by simp [hz])] at g5
        subst g5 g4
        refine ⟨hb', hx, ?_, ?_, ?_, ?_, hl, hu⟩
        · simp only [leave, runs_append, reads_append, restarts_append]; omega
        · simp only [leave, restarts_append]; omega
        · intro j
          simp only [leave, restartsOf_append]; exact hn j
        · intro h0
          have := hc h0
          simp only [leave, calls_append] at this ⊢
          omega
    · simp only [Bool.not_eq_true] at hd
      rw [hd] at g4 g5
      simp only [ho, ha, Bool.not_false, Bool.and_self, if_true, Bool.false_and, Bool.false_eq_true,
        if_false] at g4 g5
      have hlim : s.next ≠ p.limit := by
        intro hlim
        simp [isDone, hlim] at hd
      subst g5 g4
      refine ⟨hb', hx, ?_, ?_, ?_, ?_, ?_, hu⟩
      · simp only [leave, runs_append, reads_append, restarts_append, runs, reads, restarts]; omega
      · simp only [leave, restarts_append, restarts]; omega
      · intro j
        have := hn j
        simp only [leave, restartsOf_append, restartsOf] at this ⊢
        grind
      · intro h0
        have := hc h0
        simp only [leave, calls_append, calls] at this ⊢
        omega
      · simp only [leave]; omega
  | @overflow l1 l2 k b h1 h2 h3 =>
    refine ⟨hb', hx, hp, ht, hn, hc, hl, ?_⟩
    intro h32
    exfalso
    have hno := finishLocked_none h3
    have h0 := hb.nonneg
    rw [h2] at hp
    simp only [runs_append, reads_append, restarts_append, runs, reads, restarts] at hp
    have hd : isDone p b s.now s = false → s.next ≠ p.limit := by
      intro hd hlim
      simp [isDone, hlim] at hd
    unfold InI32 at hno
    cases hdd : isDone p b s.now s with
    | true => rw [hdd] at hno; simp at hno; omega
    | false =>
      have := hd hdd
      rw [hdd, ho] at hno; simp at hno; omega
  | @restart l1 l2 k h1 h2 =>
    rw [h2] at hp ht hn hc
    simp only [runs_append, reads_append, restarts_append, restartsOf_append, calls_append, runs, reads,
      restarts, restartsOf, calls] at hp ht hn hc
    refine ⟨hb', hx, ?_, ?_, ?_, ?_, hl, hu⟩
    · simp only [startIteration, runs_append, reads_append, restarts_append, runs, reads, restarts]
      omega
    · simp only [startIteration, allStarts, restarts_append, restarts]; omega
    · intro j
      have := hn j
      simp only [startIteration, starts, restartsOf_append, restartsOf] at this ⊢
      grind
    · intro h0
      have := hc h0
      simp only [startIteration, calls_append, calls, reports] at this ⊢
      exact this
  | @allDone l1 l2 h1 h2 =>
    rw [h2] at hp ht hn hc
    simp only [runs_append, reads_append, restarts_append, restartsOf_append, calls_append, runs, reads,
      restarts, restartsOf, calls] at hp ht hn hc
    refine ⟨hb', hx, ?_, ?_, ?_, ?_, hl, hu⟩
    · simp only [runs_append, reads_append, restarts_append]; omega
    · simp only [allStarts, restarts_append]; omega
    · intro j
      simp only [starts, restartsOf_append]; exact hn j
    · intro h0
      have := hc h0
      simp only [calls_append, reports] at this ⊢
      omega
  | run h1 h2 => rw [ha] at h2; simp at h2
  | tick gap h1 h2 => rw [ho] at h2; simp at h2
  | tickOverflow gap h1 h2 => rw [ho] at h2; simp at h2

theorem closed_idle {p : Params} {s s' : State} (ho : p.openLoop = false)
    (hi : Closed p s) (h : Idle p s s') : Closed p s' := by
  cases h with
  | cancel => exact ⟨⟨hi.book.1, hi.book.2, hi.book.3, hi.book.4⟩, hi.2, hi.3, hi.4, hi.5, hi.6, hi.7, hi.8⟩
  | time now => exact ⟨⟨hi.book.1, hi.book.2, hi.book.3, hi.book.4⟩, hi.2, hi.3, hi.4, hi.5, hi.6, hi.7, hi.8⟩
  | tick gap h1 h2 => rw [ho] at h2; simp at h2

theorem closed_begin {p : Params} {t : Time} {now : Int} {b : Bool} {s : State}
    (ho : p.openLoop = false) (hc : p.copies ≤ p.limit) (h : begin p t now b = .ok s) :
    Closed p s := by
  unfold begin at h
  rw [ho] at h
  simp only [Bool.false_eq_true, if_false] at h
  split at h
  · simp at h
  · injection h with h
    subst h
    refine ⟨⟨fun _ => rfl, rfl, rfl, by simp⟩, by simp; omega, ?_, ?_, ?_, ?_, hc, fun _ => rfl⟩
    · simp [runs, reads, restarts]
    · simp [allStarts, restarts]
    · intro k; simp [starts, restartsOf]
    · intro h0
      exact ⟨fun h => by simp at h; omega, fun _ => rfl⟩

theorem closed_run {p : Params} {s0 s : State} {n : Nat} (ho : p.openLoop = false)
    (ha : p.activity = false) (h0 : Closed p s0) (h : Run p s0 n s) : Closed p s := by
  induction h with
  | start => exact h0
  | work _ hw ih => exact closed_work ho ha ih hw
  | idle _ hw ih => exact closed_idle ho ih hw

/-! ### counting steps -/

/-- Every step starts an iteration, ends one, takes the mutex for one, or reports. -/
theorem work_count {p : Params} {s s' : State} (h : Work p s s') (hu : s'.overflow = false) :
    (allStarts s'.log : Int) + allEnds s'.log + s'.finished + reports s'.log =
      (allStarts s.log : Int) + allEnds s.log + s.finished + reports s.log + 1 := by
  cases h with
  | issue => simp only [startIteration, allStarts, allEnds, reports]; omega
  | complete => simp only [allStarts, allEnds, reports]; omega
  | @locked l1 l2 k b next finished d h1 h2 h3 =>
    obtain ⟨g1, -⟩ := finishLocked_some h3
    cases d <;> simp only [leave] <;> omega
  | overflow => simp at hu
  | restart => simp only [startIteration, allStarts, allEnds, reports]; omega
  | allDone => simp only [allStarts, allEnds, reports]; omega
  | run => simp only [startIteration, allStarts, allEnds, reports]; omega
  | tick => simp only [startIteration, allStarts, allEnds, reports]; omega
  | tickOverflow => simp at hu

theorem work_overflow {p : Params} {s s' : State} (h : Work p s s') : s.overflow = false := by
  cases h <;> assumption

theorem idle_frame {p : Params} {s s' : State} (h : Idle p s s') :
    s'.overflow = s.overflow ∧ s'.log = s.log ∧ s'.finished = s.finished ∧ s'.next = s.next ∧
    s'.threads = s.threads ∧ s'.issued = s.issued ∧ (s.canceled = true → s'.canceled = true) := by
  cases h <;> simp

theorem work_canceled {p : Params} {s s' : State} (h : Work p s s') : s'.canceled = s.canceled := by
  cases h with
  | @locked l1 l2 k b next finished d h1 h2 h3 => cases d <;> rfl
  | _ => rfl

theorem work_now {p : Params} {s s' : State} (h : Work p s s') : s'.now = s.now := by
  cases h with
  | @locked l1 l2 k b next finished d h1 h2 h3 => cases d <;> rfl
  | _ => rfl

theorem run_count {p : Params} {s0 s : State} {n : Nat} (h : Run p s0 n s)
    (hu : s.overflow = false) :
    (allStarts s.log : Int) + allEnds s.log + s.finished + reports s.log =
      (allStarts s0.log : Int) + allEnds s0.log + s0.finished + reports s0.log + n := by
  induction h with
  | start => omega
  | work _ hw ih =>
    have := work_count hw hu
    have := ih (work_overflow hw)
    omega
  | idle _ hi ih =>
    obtain ⟨h1, h2, h3, -⟩ := idle_frame hi
    rw [h1] at hu
    have := ih hu
    rw [h2, h3]
    exact this

/-- While something is under way a step is possible. -/
theorem thread_step {p : Params} {s : State} (hu : s.overflow = false) (hne : s.threads ≠ []) :
    ∃ s', Work p s s' := by
  obtain ⟨t, rest, ht⟩ := List.exists_cons_of_ne_nil hne
  cases t with
  | running k => exact ⟨_, .complete (l1 := []) hu ht⟩
  | read k b =>
    cases hf : finishLocked p b s with
    | none => exact ⟨_, .overflow (l1 := []) hu ht hf⟩
    | some r =>
      obtain ⟨next, finished, d⟩ := r
      exact ⟨_, .locked (l1 := []) hu ht hf⟩
  | restart k => exact ⟨_, .restart (l1 := []) hu ht⟩
  | calling => exact ⟨_, .allDone (l1 := []) hu ht⟩

/-! ### how many run at once -/

/-- Bounds on what is under way, for closed loops that are not activities. -/
structure Window (p : Params) (s : State) : Prop where
  pend : s.next - s.finished ≤ p.copies
  clean : s.canceled = false → ∀ k, .read k true ∉ s.threads
  full : s.canceled = false → p.timeLimit = .future →
    s.next = p.limit ∨ s.next - s.finished = p.copies

theorem window_work {p : Params} {s s' : State} (ho : p.openLoop = false) (ha : p.activity = false)
    (hi : Window p s) (h : Work p s s') : Window p s' := by
  obtain ⟨hp, hc, hf⟩ := hi
  cases h with
  | issue h1 h2 h3 =>
    refine ⟨hp, ?_, hf⟩
    intro hcn k hm
    simp only [startIteration, List.mem_append, List.mem_singleton] at hm
    rcases hm with hm | hm
    · exact hc hcn k hm
    · simp at hm
  | @complete l1 l2 k h1 h2 =>
    refine ⟨hp, ?_, hf⟩
    intro hcn j hm
    simp only [] at hcn
    rw [hcn] at hm
    simp only [List.mem_append, List.mem_cons] at hm
    have := hc hcn j
    rw [h2] at this
    simp only [List.mem_append, List.mem_cons, not_or] at this
    rcases hm with hm | hm | hm
    · exact this.1 hm
    · simp at hm
    · exact this.2.2 hm
  | @locked l1 l2 k b next finished d h1 h2 h3 =>
    obtain ⟨g1, g2, g3, g4, g5⟩ := finishLocked_some h3
    have hcl : s.canceled = false → ∀ j, .read j true ∉ (leave { s with next := next, finished := finished } l1 l2 d).threads := by
      intro hcn j
      have := hc hcn j
      rw [h2] at this
      simp only [List.mem_append, List.mem_cons, not_or] at this
      cases d <;> simp [leave, this]
    have hb : s.canceled = false → b = false := by
      intro hcn
      have := hc hcn k
      rw [h2] at this
      cases b with
      | false => rfl
      | true => simp at this
    have hnf : next - finished ≤ p.copies := by
      rw [g4]; split <;> omega
    have hfull : s.canceled = false → p.timeLimit = .future → next = p.limit ∨ next - finished = p.copies := by
      intro hcn htl
      rw [hb hcn] at g4
      by_cases hl : s.next = p.limit
      · left
        rw [g4, if_neg (by simp [isDone, hl])]
        exact hl
      · right
        have hnd : isDone p false s.now s = false := by
          simp [isDone, hl, ho, htl, Time.lt]
        rw [hnd, ho] at g4
        simp only [Bool.not_false, Bool.and_self, if_true] at g4
        rcases hf hcn htl with hf | hf
        · exact absurd hf hl
        · omega
    cases d <;> exact ⟨hnf, hcl, hfull⟩
  | overflow => exact ⟨hp, hc, hf⟩
  | @restart l1 l2 k h1 h2 =>
    refine ⟨hp, ?_, hf⟩
    intro hcn j hm
    have := hc hcn j
    rw [h2] at this
    simp only [startIteration, List.mem_append, List.mem_cons, not_or] at this hm
    rcases hm with hm | hm | hm
    · exact this.1 hm
    · simp at hm
    · exact this.2.2 hm
  | @allDone l1 l2 h1 h2 =>
    refine ⟨hp, ?_, hf⟩
    intro hcn j hm
    have := hc hcn j
    rw [h2] at this
    simp only [List.mem_append, List.mem_cons, not_or] at this hm
    rcases hm with hm | hm
    · exact this.1 hm
    · exact this.2.2 hm
  | run h1 h2 => rw [ha] at h2; simp at h2
  | tick gap h1 h2 => rw [ho] at h2; simp at h2
  | tickOverflow gap h1 h2 => rw [ho] at h2; simp at h2

theorem window_idle {p : Params} {s s' : State} (ho : p.openLoop = false)
    (hi : Window p s) (h : Idle p s s') : Window p s' := by
  cases h with
  | cancel => exact ⟨hi.1, fun h => by simp at h, fun h => by simp at h⟩
  | time now => exact ⟨hi.1, hi.2, hi.3⟩
  | tick gap h1 h2 => rw [ho] at h2; simp at h2

theorem window_run {p : Params} {s0 s : State} {n : Nat} (ho : p.openLoop = false)
    (ha : p.activity = false) (h0 : Window p s0) (h : Run p s0 n s) : Window p s := by
  induction h with
  | start => exact h0
  | work _ hw ih => exact window_work ho ha ih hw
  | idle _ hw ih => exact window_idle ho ih hw

theorem window_begin {p : Params} {t : Time} {now : Int} {b : Bool} {s : State}
    (ho : p.openLoop = false) (h : begin p t now b = .ok s) : Window p s := by
  unfold begin at h
  rw [ho] at h
  simp only [Bool.false_eq_true, if_false] at h
  split at h
  · simp at h
  · injection h with h
    subst h
    exact ⟨by simp, by simp, by simp⟩

/-! ### after cancellation -/

theorem readsNo_le (l : List Thread) : readsNo l ≤ reads l := by
  induction l with
  | nil => simp [readsNo, reads]
  | cons t r ih =>
    cases t with
    | read k c => cases c <;> simp [readsNo, reads] <;> omega
    | _ => simpa [readsNo, reads] using ih

/-- What may still be started after cancellation only shrinks. -/
theorem cancel_work {p : Params} {s s' : State} (ho : p.openLoop = false) (ha : p.activity = false)
    (hcn : s.canceled = true) (h : Work p s s') :
    (allStarts s'.log : Int) + (p.copies - s'.issued) + restarts s'.threads + readsNo s'.threads ≤
    (allStarts s.log : Int) + (p.copies - s.issued) + restarts s.threads + readsNo s.threads := by
  cases h with
  | issue =>
    simp only [startIteration, allStarts, restarts_append, readsNo_append, restarts, readsNo]; omega
  | @complete l1 l2 k h1 h2 =>
    rw [h2, hcn]
    simp only [allStarts, restarts_append, readsNo_append, restarts, readsNo]; omega
  | @locked l1 l2 k b next finished d h1 h2 h3 =>
    obtain ⟨g1, g2, g3, g4, g5⟩ := finishLocked_some h3
    rw [h2]
    cases b with
    | true =>
      have hd : isDone p true s.now s = true := by simp [isDone]
      rw [hd] at g5
      have : d = .allDone ∨ d = .free := by
        simp only [Bool.not_true, Bool.false_and, Bool.and_false, Bool.false_eq_true, if_false] at g5
        split at g5
        · exact .inl g5
        · exact .inr g5
      rcases this with rfl | rfl <;>
      · simp only [leave, restarts_append, readsNo_append, restarts, readsNo]; omega
    | false =>
      cases d <;>
      · simp only [leave, restarts_append, readsNo_append, restarts, readsNo]; omega
  | overflow => exact Int.le_refl _
  | @restart l1 l2 k h1 h2 =>
    rw [h2]
    simp only [startIteration, allStarts, restarts_append, readsNo_append, restarts, readsNo]; omega
  | @allDone l1 l2 h1 h2 =>
    rw [h2]
    simp only [allStarts, restarts_append, readsNo_append, restarts, readsNo]; omega
  | run h1 h2 => rw [ha] at h2; simp at h2
  | tick gap h1 h2 => rw [ho] at h2; simp at h2
  | tickOverflow gap h1 h2 => rw [ho] at h2; simp at h2

theorem cancel_run {p : Params} {s0 s : State} {n : Nat} (ho : p.openLoop = false)
    (ha : p.activity = false) (hcn : s0.canceled = true) (h : Run p s0 n s) :
    s.canceled = true ∧
    (allStarts s.log : Int) + (p.copies - s.issued) + restarts s.threads + readsNo s.threads ≤
    (allStarts s0.log : Int) + (p.copies - s0.issued) + restarts s0.threads + readsNo s0.threads := by
  induction h with
  | start => exact ⟨hcn, by omega⟩
  | work _ hw ih =>
    have := cancel_work ho ha ih.1 hw
    exact ⟨by rw [work_canceled hw]; exact ih.1, by omega⟩
  | idle _ hi ih =>
    obtain ⟨h1, h2, h3, h4, h5, h6, h7⟩ := idle_frame hi
    rw [h2, h5, h6]
    exact ⟨h7 ih.1, ih.2⟩

/-- The same once the time limit has passed. -/
theorem expired_work {p : Params} {s s' : State} (ho : p.openLoop = false) (ha : p.activity = false)
    (hex : Time.lt p.timeLimit (.at s.now) = true) (h : Work p s s') :
    (allStarts s'.log : Int) + (p.copies - s'.issued) + restarts s'.threads ≤
    (allStarts s.log : Int) + (p.copies - s.issued) + restarts s.threads := by
  cases h with
  | issue =>
    simp only [startIteration, allStarts, restarts_append, restarts]; omega
  | @complete l1 l2 k h1 h2 =>
    rw [h2]
    simp only [allStarts, restarts_append, restarts]; omega
  | @locked l1 l2 k b next finished d h1 h2 h3 =>
    obtain ⟨g1, g2, g3, g4, g5⟩ := finishLocked_some h3
    rw [h2]
    have hd : isDone p b s.now s = true := by
      simp only [isDone, ho, Bool.not_false, if_true, hex]
      simp
    rw [hd] at g5
    have : d = .allDone ∨ d = .free := by
      simp only [Bool.not_true, Bool.false_and, Bool.and_false, Bool.false_eq_true, if_false] at g5
      split at g5
      · exact .inl g5
      · exact .inr g5
    rcases this with rfl | rfl <;>
    · simp only [leave, restarts_append, restarts]; omega
  | overflow => exact Int.le_refl _
  | @restart l1 l2 k h1 h2 =>
    rw [h2]
    simp only [startIteration, allStarts, restarts_append, restarts]; omega
  | @allDone l1 l2 h1 h2 =>
    rw [h2]
    simp only [allStarts, restarts_append, restarts]; omega
  | run h1 h2 => rw [ha] at h2; simp at h2
  | tick gap h1 h2 => rw [ho] at h2; simp at h2
  | tickOverflow gap h1 h2 => rw [ho] at h2; simp at h2

theorem idle_expired {p : Params} {s s' : State} (h : Idle p s s')
    (hex : Time.lt p.timeLimit (.at s.now) = true) : Time.lt p.timeLimit (.at s'.now) = true := by
  cases h with
  | cancel => exact hex
  | time now hle =>
    cases ht : p.timeLimit with
    | past => rfl
    | future => rw [ht] at hex; simp [Time.lt] at hex
    | «at» t =>
      rw [ht] at hex
      simp only [Time.lt, decide_eq_true_eq] at hex ⊢
      omega
  | tick => exact hex

theorem expired_run {p : Params} {s0 s : State} {n : Nat} (ho : p.openLoop = false)
    (ha : p.activity = false) (hex : Time.lt p.timeLimit (.at s0.now) = true) (h : Run p s0 n s) :
    Time.lt p.timeLimit (.at s.now) = true ∧
    (allStarts s.log : Int) + (p.copies - s.issued) + restarts s.threads ≤
    (allStarts s0.log : Int) + (p.copies - s0.issued) + restarts s0.threads := by
  induction h with
  | start => exact ⟨hex, by omega⟩
  | work _ hw ih =>
    have := expired_work ho ha ih.1 hw
    exact ⟨by rw [work_now hw]; exact ih.1, by omega⟩
  | idle _ hi ih =>
    obtain ⟨h1, h2, h3, h4, h5, h6, h7⟩ := idle_frame hi
    rw [h2, h5, h6]
    exact ⟨idle_expired hi ih.1, ih.2⟩

/-! ### activities -/

structure Activity (p : Params) (s : State) : Prop where
  book : Book s
  one : s.threads = [] ∨ ∃ t, s.threads = [t]
  noRestart : restarts s.threads = 0
  issued : 0 ≤ s.issued ∧ s.issued ≤ p.copies
  early : s.issued < p.copies → (allStarts s.log : Int) = s.issued
  clean : s.canceled = false → ∀ k, .read k true ∉ s.threads
  next : s.canceled = false → p.timeLimit = .future → s.next = min p.limit (p.copies + s.finished)
  bound : s.canceled = false → p.timeLimit = .future → (allStarts s.log : Int) ≤ p.limit
  call : s.canceled = false → p.timeLimit = .future →
    (s.finished = p.limit → calls s.threads + reports s.log = 1) ∧
    (s.finished ≠ p.limit → calls s.threads + reports s.log = 0)
  ub : s.canceled = false → p.timeLimit = .future → p.limit < 2 ^ 31 → s.overflow = false

theorem one_split {l : List Thread} (h : l = [] ∨ ∃ t, l = [t]) {l1 l2 : List Thread} {t : Thread}
    (hs : l = l1 ++ t :: l2) : l1 = [] ∧ l2 = [] := by
  rcases h with h | ⟨u, h⟩
  · rw [h] at hs; simp at hs
  · rw [h] at hs
    cases l1 with
    | nil =>
      simp only [List.nil_append] at hs
      injection hs with h1 h2
      exact ⟨rfl, h2.symm⟩
    | cons a r =>
      simp only [List.cons_append] at hs
      injection hs with h1 h2
      simp at h2

theorem reports_zero {log : List Event} (h : .allDone ∉ log) : reports log = 0 := by
  induction log with
  | nil => rfl
  | cons e r ih =>
    simp only [List.mem_cons, not_or] at h
    cases e with
    | allDone => exact absurd rfl h.1
    | _ => simpa [reports] using ih h.2

theorem reports_pos {log : List Event} (h : .allDone ∈ log) : 0 < reports log := by
  induction log with
  | nil => simp at h
  | cons e r ih =>
    cases e with
    | allDone => simp [reports]; omega
    | _ => simp only [List.mem_cons, reduceCtorEq, false_or] at h; simpa [reports] using ih h

theorem activity_work {p : Params} {s s' : State} (ho : p.openLoop = false) (ha : p.activity = true)
    (hc0 : 0 < p.copies) (hcl : p.copies ≤ p.limit)
    (hi : Activity p s) (h : Work p s s') : Activity p s' := by
  obtain ⟨hb, h1, hr, hx, he, hc, hn, hbd, hcall, hu⟩ := hi
  have hb' := book_work hb h
  cases h with
  | issue k1 k2 k3 k4 =>
    have hth := k4 ha
    have hearly := he k3
    rw [hth] at hr hcall
    obtain ⟨-, b2, b3, -⟩ := hb
    rw [hth] at b2 b3
    simp only [runs, reads] at b2 b3
    refine ⟨hb', .inr ⟨_, by simp only [startIteration, hth]; rfl⟩, ?_, ?_, ?_, ?_, hn, ?_, ?_, hu⟩
    · simp only [startIteration, hth]; rfl
    · simp only [startIteration]; omega
    · intro _; simp only [startIteration, allStarts]; omega
    · intro _ k; simp [startIteration, hth]
    · intro _ _; simp only [startIteration, allStarts]; omega
    · intro g1 g2
      simp only [startIteration, hth, List.nil_append, calls, reports] at *
      exact hcall g1 g2
  | @complete l1 l2 k k1 k2 =>
    obtain ⟨rfl, rfl⟩ := one_split h1 k2
    rw [k2] at hcall
    refine ⟨hb', .inr ⟨_, rfl⟩, rfl, hx, ?_, ?_, hn, ?_, ?_, hu⟩
    · intro g; simp only [allStarts]; exact he g
    · intro g j hm
      simp only [] at g
      rw [g] at hm
      simp at hm
    · intro g1 g2; simp only [allStarts]; exact hbd g1 g2
    · intro g1 g2
      simp only [List.nil_append, calls, reports] at hcall ⊢
      exact hcall g1 g2
  | @locked l1 l2 k b next finished d k1 k2 k3 =>
    obtain ⟨rfl, rfl⟩ := one_split h1 k2
    obtain ⟨g1, g2, g3, g4, g5⟩ := finishLocked_some k3
    obtain ⟨-, b2, b3, b4⟩ := hb
    rw [k2] at b2 b3 hcall
    simp only [List.nil_append, runs, reads] at b2 b3
    have hbb : s.canceled = false → b = false := by
      intro hcn
      have := hc hcn k
      rw [k2] at this
      cases b with
      | false => rfl
      | true => simp at this
    have hd : d = .allDone ∨ d = .free := by
      simp only [ha, Bool.not_true, Bool.false_and, Bool.false_eq_true, if_false] at g5
      split at g5
      · exact .inl g5
      · exact .inr g5
    have hkey : s.canceled = false → p.timeLimit = .future →
        next = min p.limit (p.copies + finished) ∧ (finished = p.limit ↔ d = .allDone) := by
      intro hcn htl
      have hnn := hn hcn htl
      rw [hbb hcn] at g4 g5
      have hbd' := hbd hcn htl
      by_cases hl : s.next = p.limit
      · have hdn : isDone p false s.now s = true := by simp [isDone, hl]
        rw [hdn] at g4 g5
        simp only [ha, Bool.not_true, Bool.false_and, Bool.and_false, Bool.false_eq_true, if_false,
          Bool.true_and] at g4 g5
        refine ⟨by omega, ?_⟩
        rw [g5]
        split
        · rename_i hz
          simp only [beq_iff_eq] at hz
          simp only [iff_true]; omega
        · rename_i hz
          simp only [beq_iff_eq] at hz
          simp only [reduceCtorEq, iff_false]; omega
      · have hdn : isDone p false s.now s = false := by simp [isDone, hl, ho, htl, Time.lt]
        rw [hdn] at g4 g5
        simp only [ho, ha, Bool.not_false, Bool.and_self, if_true, Bool.false_and, Bool.not_true,
          Bool.false_eq_true, if_false] at g4 g5
        rw [g5]
        refine ⟨by omega, ?_⟩
        simp only [reduceCtorEq, iff_false]; omega
    have hcq : s.canceled = false → p.timeLimit = .future → s.finished ≠ p.limit := by
      intro hcn htl
      have := hbd hcn htl
      omega
    rcases hd with rfl | rfl
    · refine ⟨hb', .inr ⟨_, rfl⟩, rfl, hx, he, by simp [leave], fun a b => (hkey a b).1, hbd, ?_, hu⟩
      intro a b
      have h3 := ((hkey a b).2).2 rfl
      have h4 := (hcall a b).2 (hcq a b)
      simp only [leave, List.nil_append, calls] at h4 ⊢
      omega
    · refine ⟨hb', .inl rfl, rfl, hx, he, by simp [leave], fun a b => (hkey a b).1, hbd, ?_, hu⟩
      intro a b
      have h3 : finished ≠ p.limit := fun hh => by
        have := ((hkey a b).2).1 hh
        simp at this
      have h4 := (hcall a b).2 (hcq a b)
      simp only [leave, List.nil_append, calls] at h4 ⊢
      omega
  | @overflow l1 l2 k b k1 k2 k3 =>
    refine ⟨hb', h1, hr, hx, he, hc, hn, hbd, hcall, ?_⟩
    intro hcn htl h32
    exfalso
    have hno := finishLocked_none k3
    obtain ⟨-, b2, b3, b4⟩ := hb
    rw [k2] at b2 b3
    simp only [runs_append, reads_append, runs, reads] at b2 b3
    have hnn := hn hcn htl
    have hbd' := hbd hcn htl
    have hbb : b = false := by
      have := hc hcn k
      rw [k2] at this
      cases b with
      | false => rfl
      | true => simp at this
    subst hbb
    have hd : isDone p false s.now s = false → s.next ≠ p.limit := by
      intro hd hlim
      simp [isDone, hlim] at hd
    unfold InI32 at hno
    cases hdd : isDone p false s.now s with
    | true => rw [hdd] at hno; simp at hno; omega
    | false =>
      have := hd hdd
      rw [hdd, ho] at hno; simp at hno; omega
  | @restart l1 l2 k k1 k2 =>
    rw [k2] at hr
    simp only [restarts_append, restarts] at hr
    omega
  | @allDone l1 l2 k1 k2 =>
    obtain ⟨rfl, rfl⟩ := one_split h1 k2
    rw [k2] at hcall
    refine ⟨hb', .inl rfl, rfl, hx, he, by simp, hn, hbd, ?_, hu⟩
    intro a b
    have := hcall a b
    simp only [List.nil_append, calls, reports] at this ⊢
    omega
  | run k1 k2 k3 k4 k5 k6 =>
    obtain ⟨-, b2, b3, b4⟩ := hb
    rw [k5] at b2 b3 hcall
    simp only [runs, reads] at b2 b3
    refine ⟨hb', .inr ⟨_, rfl⟩, rfl, hx, ?_, by simp [startIteration], hn, ?_, ?_, hu⟩
    · intro g; simp only [startIteration] at g; omega
    · intro a b
      have := hcall a b
      rw [reports_zero k6] at this
      have := hbd a b
      simp only [calls] at *
      simp only [startIteration, allStarts]
      omega
    · intro a b
      have := hcall a b
      simp only [startIteration, calls, reports] at this ⊢
      exact this
  | tick gap h1 h2 => rw [ho] at h2; simp at h2
  | tickOverflow gap h1 h2 => rw [ho] at h2; simp at h2

theorem activity_idle {p : Params} {s s' : State} (ho : p.openLoop = false)
    (hi : Activity p s) (h : Idle p s s') : Activity p s' := by
  cases h with
  | cancel =>
    exact ⟨⟨hi.book.1, hi.book.2, hi.book.3, hi.book.4⟩, hi.2, hi.3, hi.4, hi.5, fun h => by simp at h,
      fun h => by simp at h, fun h => by simp at h, fun h => by simp at h, fun h => by simp at h⟩
  | time now =>
    exact ⟨⟨hi.book.1, hi.book.2, hi.book.3, hi.book.4⟩, hi.2, hi.3, hi.4, hi.5, hi.6, hi.7, hi.8,
      hi.9, hi.10⟩
  | tick gap h1 h2 => rw [ho] at h2; simp at h2

theorem activity_begin {p : Params} {t : Time} {now : Int} {b : Bool} {s : State}
    (ho : p.openLoop = false) (hc0 : 0 < p.copies) (hc : p.copies ≤ p.limit)
    (h : begin p t now b = .ok s) : Activity p s := by
  unfold begin at h
  rw [ho] at h
  simp only [Bool.false_eq_true, if_false] at h
  split at h
  · simp at h
  · injection h with h
    subst h
    refine ⟨⟨fun _ => rfl, rfl, rfl, by simp⟩, .inl rfl, rfl, ⟨by simp, by simp; omega⟩, fun _ => rfl,
      by simp, ?_, ?_, ?_, fun _ _ _ => rfl⟩
    · intro _ _; simp only []; omega
    · intro _ _; simp only [allStarts]; omega
    · intro _ _; exact ⟨fun h => by simp at h; omega, fun _ => rfl⟩

theorem activity_run {p : Params} {s0 s : State} {n : Nat} (ho : p.openLoop = false)
    (ha : p.activity = true) (hc0 : 0 < p.copies) (hcl : p.copies ≤ p.limit)
    (h0 : Activity p s0) (h : Run p s0 n s) : Activity p s := by
  induction h with
  | start => exact h0
  | work _ hw ih => exact activity_work ho ha hc0 hcl ih hw
  | idle _ hw ih => exact activity_idle ho ih hw

/-! ### open loops -/

/-- No further iteration will be started. -/
def Over (p : Params) (s : State) : Prop :=
  s.next = p.limit ∨ Time.lt p.timeLimit s.nextTime = true

structure Open (p : Params) (s : State) : Prop where
  book : Book s
  noRestart : restarts s.threads = 0
  pend : s.next - s.finished = (runs s.threads + reads s.threads : Nat)
  total : (allStarts s.log : Int) = s.next
  num : ∀ k, starts k s.log = if 0 ≤ k ∧ k < s.next then 1 else 0
  lim : s.next ≤ p.limit
  time : ∀ t, s.nextTime = .at t → s.next = 0 ∨ Time.lt p.timeLimit s.nextTime = false
  clean : s.canceled = false → ∀ k, .read k true ∉ s.threads
  call : s.canceled = false →
    (Over p s ∧ s.next = s.finished ∧ 0 < s.next → calls s.threads + reports s.log = 1) ∧
    (¬ (Over p s ∧ s.next = s.finished ∧ 0 < s.next) → calls s.threads + reports s.log = 0)
  ub : p.limit < 2 ^ 31 → s.overflow = false

theorem lt_past (t : Time) : Time.lt t .past = false := by cases t <;> rfl

theorem add_eq_at {t : Time} {d x : Int} (h : t.add d = .at x) : ∃ y, t = .at y := by
  cases t with
  | «at» y => exact ⟨y, rfl⟩
  | past => simp [Time.add] at h
  | future => simp [Time.add] at h

theorem openTick_time {p : Params} {gap : Int} {s : State} {t : Int}
    (h : (openTick p gap s).1 = .at t) : Time.lt p.timeLimit (.at t) = false := by
  simp only [openTick] at h
  split at h
  · simp at h
  · rename_i hx
    rw [h] at hx
    simpa using hx

/-- A visit that starts nothing does not change whether the action is over. -/
theorem over_idle_tick {p : Params} {gap : Int} {s : State} (hl : s.next = p.limit) :
    Over p { s with nextTime := (openTick p gap s).1 } := .inl hl

theorem open_work {p : Params} {s s' : State} (ho : p.openLoop = true)
    (hi : Open p s) (h : Work p s s') : Open p s' := by
  obtain ⟨hb, hr, hp, ht, hn, hl, htm, hc, hcall, hu⟩ := hi
  have hb' := book_work hb h
  cases h with
  | issue k1 k2 => rw [ho] at k2; simp at k2
  | @complete l1 l2 k k1 k2 =>
    rw [k2] at hr hp hc hcall
    simp only [runs_append, reads_append, restarts_append, calls_append, runs, reads, restarts, calls]
      at hr hp hcall
    refine ⟨hb', ?_, ?_, ?_, ?_, hl, htm, ?_, ?_, hu⟩
    · simp only [restarts_append, restarts]; omega
    · simp only [runs_append, reads_append, runs, reads]; omega
    · simp only [allStarts]; omega
    · intro j; simp only [starts]; exact hn j
    · intro g j
      simp only [] at g
      have := hc g j
      rw [g]
      simp only [List.mem_append, List.mem_cons, not_or] at this ⊢
      exact ⟨this.1, by simp, this.2.2⟩
    · intro g
      simp only [calls_append, calls, reports]
      exact hcall g
  | @locked l1 l2 k b next finished d k1 k2 k3 =>
    obtain ⟨g1, g2, g3, g4, g5⟩ := finishLocked_some k3
    simp only [ho, Bool.not_true, Bool.and_false, Bool.false_eq_true, if_false] at g4 g5
    subst g4
    have hbb : s.canceled = false → b = false := by
      intro hcn
      have := hc hcn k
      rw [k2] at this
      cases b with
      | false => rfl
      | true => simp at this
    rw [k2] at hr hp hcall
    simp only [runs_append, reads_append, restarts_append, calls_append, runs, reads, restarts, calls]
      at hr hp hcall
    have hcl : s.canceled = false → ∀ j,
        .read j true ∉ (leave { s with next := s.next, finished := finished } l1 l2 d).threads := by
      intro hcn j
      have := hc hcn j
      rw [k2] at this
      simp only [List.mem_append, List.mem_cons, not_or] at this
      cases d <;> simp [leave, this]
    have hdone : s.canceled = false → (isDone p b s.now s = true ↔ Over p s) := by
      intro hcn
      rw [hbb hcn]
      unfold isDone Over
      by_cases hx : s.next = p.limit
      · simp [hx]
      · simp [hx, ho]
    have hnot : ¬ (Over p s ∧ s.next = s.finished ∧ 0 < s.next) := by
      rintro ⟨-, h, -⟩; omega
    have h0 := hb.nonneg
    by_cases hz : isDone p b s.now s = true ∧ s.next - finished = 0
    · rw [if_pos (by simp [hz])] at g5
      subst g5
      refine ⟨hb', ?_, ?_, ht, hn, hl, htm, hcl, ?_, hu⟩
      · simp only [leave, restarts_append, restarts]; omega
      · simp only [leave, runs_append, reads_append, runs, reads]; omega
      · intro g
        have h4 := (hcall g).2 hnot
        have h5 := (hdone g).1 hz.1
        simp only [leave, calls_append, calls]
        constructor
        · intro _; omega
        · intro hx; exact absurd ⟨h5, show s.next = finished by omega, show 0 < s.next by omega⟩ hx
    · rw [if_neg (by simp; intro h; simpa using fun h2 => hz ⟨h, h2⟩)] at g5
      subst g5
      refine ⟨hb', ?_, ?_, ht, hn, hl, htm, hcl, ?_, hu⟩
      · simp only [leave, restarts_append]; omega
      · simp only [leave, runs_append, reads_append]; omega
      · intro g
        have h4 := (hcall g).2 hnot
        simp only [leave, calls_append]
        constructor
        · rintro ⟨hx1, hx2, -⟩
          have hx2 : s.next = finished := hx2
          exact absurd ⟨(hdone g).2 hx1, by omega⟩ hz
        · intro _; omega
  | @overflow l1 l2 k b k1 k2 k3 =>
    refine ⟨hb', hr, hp, ht, hn, hl, htm, hc, hcall, ?_⟩
    intro h32
    exfalso
    have hno := finishLocked_none k3
    have h0 := hb.nonneg
    rw [k2] at hp
    simp only [runs_append, reads_append, runs, reads] at hp
    simp only [ho, Bool.not_true, Bool.and_false, Bool.false_eq_true, if_false] at hno
    unfold InI32 at hno
    omega
  | @restart l1 l2 k k1 k2 =>
    rw [k2] at hr
    simp only [restarts_append, restarts] at hr
    omega
  | @allDone l1 l2 k1 k2 =>
    rw [k2] at hr hp hc hcall
    simp only [runs_append, reads_append, restarts_append, calls_append, runs, reads, restarts, calls]
      at hr hp hcall
    refine ⟨hb', ?_, ?_, ?_, ?_, hl, htm, ?_, ?_, hu⟩
    · simp only [restarts_append]; omega
    · simp only [runs_append, reads_append]; omega
    · simp only [allStarts]; omega
    · intro j; simp only [starts]; exact hn j
    · intro g j
      have := hc g j
      simp only [List.mem_append, List.mem_cons, not_or] at this ⊢
      exact ⟨this.1, this.2.2⟩
    · intro g
      have := hcall g
      simp only [calls_append, reports]
      exact ⟨fun h => by have := this.1 h; omega, fun h => by have := this.2 h; omega⟩
  | run k1 k2 k3 => rw [ho] at k3; simp at k3
  | @tick k gap k1 k2 k3 k4 k5 k6 =>
    have hk : ¬ s.next ≥ p.limit ∧ s.next = k := by
      simp only [openTick] at k5
      split at k5
      · simp at k5
      · injection k5 with k5; exact ⟨by assumption, k5⟩
    obtain ⟨hk1, rfl⟩ := hk
    have hnot : ¬ (Over p s ∧ s.next = s.finished ∧ 0 < s.next) := by
      rintro ⟨h1, -, h3⟩
      rcases h1 with h1 | h1
      · omega
      · cases hx : s.nextTime with
        | past => rw [hx, lt_past] at h1; simp at h1
        | future => rw [hx] at k3; simp [Time.lt] at k3
        | «at» t =>
          rcases htm t hx with h | h
          · omega
          · rw [h1] at h; simp at h
    refine ⟨hb', ?_, ?_, ?_, ?_, ?_, ?_, ?_, ?_, hu⟩
    · simp only [startIteration, restarts_append, restarts]; omega
    · simp only [startIteration, runs_append, reads_append, runs, reads]; omega
    · simp only [startIteration, allStarts]; omega
    · intro j
      have := hn j
      simp only [startIteration, starts] at this ⊢
      grind
    · simp only [startIteration]; omega
    · intro t htt
      right
      simp only [startIteration] at htt ⊢
      rw [htt]
      exact openTick_time htt
    · intro g j
      have := hc g j
      simp [startIteration, this]
    · intro g
      have h4 := (hcall g).2 hnot
      simp only [startIteration, calls_append, calls, reports]
      constructor
      · rintro ⟨-, h, -⟩
        have h : s.next + 1 = s.finished := h
        omega
      · intro _; omega
  | @tickOverflow k gap k1 k2 k3 k5 k6 =>
    refine ⟨hb', hr, hp, ht, hn, hl, htm, hc, hcall, ?_⟩
    intro h32
    exfalso
    have hk : ¬ s.next ≥ p.limit := by
      simp only [openTick] at k5
      split at k5
      · simp at k5
      · assumption
    unfold InI32 at k6
    omega

theorem open_idle {p : Params} {s s' : State}
    (hi : Open p s) (h : Idle p s s') : Open p s' := by
  cases h with
  | cancel =>
    exact ⟨⟨hi.book.1, hi.book.2, hi.book.3, hi.book.4⟩, hi.2, hi.3, hi.4, hi.5, hi.6, hi.7,
      fun h => by simp at h, fun h => by simp at h, hi.10⟩
  | time now =>
    exact ⟨⟨hi.book.1, hi.book.2, hi.book.3, hi.book.4⟩, hi.2, hi.3, hi.4, hi.5, hi.6, hi.7, hi.8,
      hi.9, hi.10⟩
  | tick gap h1 h2 h3 h4 h5 =>
    have hk : s.next = p.limit := by
      have := hi.lim
      simp only [openTick] at h5
      split at h5
      · omega
      · simp at h5
    refine ⟨⟨hi.book.1, hi.book.2, hi.book.3, hi.book.4⟩, hi.2, hi.3, hi.4, hi.5, hi.6, ?_, hi.8,
      ?_, hi.10⟩
    · intro t htt
      right
      have htt' : (openTick p gap s).1 = .at t := htt
      show Time.lt p.timeLimit (openTick p gap s).1 = false
      rw [htt']
      exact openTick_time htt'
    · intro g
      have := hi.call g
      constructor
      · rintro ⟨-, h2, h3⟩
        exact this.1 ⟨.inl hk, h2, h3⟩
      · intro hx
        refine this.2 ?_
        rintro ⟨-, h2, h3⟩
        exact hx ⟨.inl hk, h2, h3⟩

theorem open_begin {p : Params} {t : Time} {now : Int} {b : Bool} {s : State}
    (ho : p.openLoop = true) (hl : 0 < p.limit) (h : begin p t now b = .ok s) : Open p s := by
  unfold begin at h
  rw [ho] at h
  simp only [if_true] at h
  split at h
  · simp at h
  · injection h with h
    subst h
    refine ⟨⟨fun _ => rfl, rfl, rfl, by simp⟩, rfl, rfl, rfl, ?_, by simp; omega, fun _ _ => .inl rfl,
      by simp, ?_, fun _ => rfl⟩
    · intro k; simp only [starts]; rw [if_neg (by omega)]
    · intro _; exact ⟨fun h => by simp at h, fun _ => rfl⟩

theorem open_run {p : Params} {s0 s : State} {n : Nat} (ho : p.openLoop = true)
    (h0 : Open p s0) (h : Run p s0 n s) : Open p s := by
  induction h with
  | start => exact h0
  | work _ hw ih => exact open_work ho ih hw
  | idle _ hw ih => exact open_idle ih hw

/-! ### warmup flags and start times -/

theorem warm_work {p : Params} {s s' : State}
    (hi : ∀ k w t, .started k w t ∈ s.log → w = warmupOf p k) (h : Work p s s') :
    ∀ k w t, .started k w t ∈ s'.log → w = warmupOf p k := by
  have key : ∀ (j now : Int), ∀ k w t, .started k w t ∈ Event.started j (warmupOf p j) now :: s.log →
      w = warmupOf p k := by
    intro j now k w t hm
    simp only [List.mem_cons, Event.started.injEq] at hm
    rcases hm with ⟨rfl, rfl, -⟩ | hm
    · rfl
    · exact hi k w t hm
  cases h with
  | issue => exact key _ _
  | complete => intro k w t hm; simp at hm; exact hi k w t hm
  | @locked l1 l2 k b next finished d h1 h2 h3 => cases d <;> exact hi
  | overflow => exact hi
  | restart => exact key _ _
  | allDone => intro k w t hm; simp at hm; exact hi k w t hm
  | run => exact key _ _
  | tick => exact key _ _
  | tickOverflow => exact hi

theorem begin_log {p : Params} {t : Time} {now : Int} {b : Bool} {s : State}
    (h : begin p t now b = .ok s) :
    s.log = [] ∧ s.canceled = b ∧ s.now = now ∧ s.threads = [] ∧ s.overflow = false ∧
    s.finished = 0 := by
  unfold begin at h
  split at h
  · split at h
    · simp at h
    · injection h with h; subst h; simp
  · split at h
    · simp at h
    · injection h with h; subst h; simp

theorem warm_run {p : Params} {s0 s : State} {n : Nat} (h0 : s0.log = []) (h : Run p s0 n s) :
    ∀ k w t, .started k w t ∈ s.log → w = warmupOf p k := by
  induction h with
  | start => rw [h0]; simp
  | work _ hw ih => exact warm_work ih hw
  | idle _ hi ih => rw [(idle_frame hi).2.1]; exact ih

/-- When the iterations of an open loop with a constant interval are due; `t0` is the time of the
first. -/
structure Timed (p : Params) (t0 : Int) (s : State) : Prop where
  due : s.next < p.limit → s.nextTime = .future ∨ s.nextTime = .at (t0 + s.next * p.periodNs)
  started : ∀ k w t, .started k w t ∈ s.log →
    t0 + k * p.periodNs < t ∧ (k = 0 ∨ Time.lt p.timeLimit (.at (t0 + k * p.periodNs)) = false)

theorem timed_work {p : Params} {t0 : Int} {s s' : State} (ho : p.openLoop = true)
    (he : p.exponential = false) (hopen : Open p s) (hi : Timed p t0 s) (h : Work p s s') :
    Timed p t0 s' := by
  obtain ⟨hd, hs⟩ := hi
  cases h with
  | issue k1 k2 => rw [ho] at k2; simp at k2
  | complete => exact ⟨hd, fun k w t hm => hs k w t (by simpa using hm)⟩
  | @locked l1 l2 k b next finished d k1 k2 k3 =>
    obtain ⟨g1, g2, g3, g4, g5⟩ := finishLocked_some k3
    simp only [ho, Bool.not_true, Bool.and_false, Bool.false_eq_true, if_false] at g4
    subst g4
    cases d <;> exact ⟨hd, hs⟩
  | overflow => exact ⟨hd, hs⟩
  | @restart l1 l2 k k1 k2 =>
    have hr := hopen.noRestart
    rw [k2] at hr
    simp only [restarts_append, restarts] at hr
    omega
  | allDone => exact ⟨hd, fun k w t hm => hs k w t (by simpa using hm)⟩
  | run k1 k2 k3 => rw [ho] at k3; simp at k3
  | @tick k gap k1 k2 k3 k4 k5 k6 =>
    rw [he] at k4
    simp only [Bool.false_eq_true, if_false] at k4
    subst k4
    have hk : ¬ s.next ≥ p.limit ∧ s.next = k := by
      simp only [openTick] at k5
      split at k5
      · simp at k5
      · injection k5 with k5; exact ⟨by assumption, k5⟩
    obtain ⟨hk1, rfl⟩ := hk
    have ht : s.nextTime = .at (t0 + s.next * p.periodNs) := by
      rcases hd (by omega) with h | h
      · rw [h] at k3; simp [Time.lt] at k3
      · exact h
    refine ⟨?_, ?_⟩
    · intro _
      show (openTick p p.periodNs s).1 = .future ∨
        (openTick p p.periodNs s).1 = .at (t0 + (s.next + 1) * p.periodNs)
      simp only [openTick, ht, Time.add]
      split
      · exact .inl rfl
      · right
        congr 1
        rw [Int.add_mul]; omega
    · intro j w t hm
      simp only [startIteration, List.mem_cons, Event.started.injEq] at hm
      rcases hm with ⟨rfl, -, rfl⟩ | hm
      · rw [ht] at k3
        simp only [Time.lt, decide_eq_true_eq] at k3
        refine ⟨k3, ?_⟩
        rcases hopen.time _ ht with h | h
        · exact .inl h
        · rw [ht] at h; exact .inr h
      · exact hs j w t hm
  | tickOverflow => exact ⟨hd, hs⟩

theorem timed_run {p : Params} {t0 : Int} {s0 s : State} {n : Nat} (ho : p.openLoop = true)
    (he : p.exponential = false) (h0 : Open p s0) (hi : Timed p t0 s0) (h : Run p s0 n s) :
    Timed p t0 s := by
  induction h with
  | start => exact hi
  | work hr hw ih => exact timed_work ho he (open_run ho h0 hr) ih hw
  | @idle n s s' hr hw ih =>
    cases hw with
    | cancel => exact ⟨ih.1, ih.2⟩
    | time now => exact ⟨ih.1, ih.2⟩
    | tick gap k1 k2 k3 k4 k5 =>
      have := open_run ho h0 hr
      refine ⟨fun hlt => ?_, ih.2⟩
      simp only [openTick] at k5
      split at k5
      · have hlt : s.next < p.limit := hlt
        omega
      · simp at k5

/-! ### parameters -/

theorem narrow_id {n : Int} (h : InI32 n) : narrow n = n := by
  unfold narrow
  unfold InI32 at h
  omega

theorem run_trans {p : Params} {s0 s1 s2 : State} {m n : Nat} (h1 : Run p s0 m s1)
    (h2 : Run p s1 n s2) : Run p s0 (m + n) s2 := by
  induction h2 with
  | start => exact h1
  | work _ hw ih => exact .work ih hw
  | idle _ hi ih => exact .idle ih hi

end Distbench.Iterations
