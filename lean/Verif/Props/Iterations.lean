import Verif.Lemmas.IterationsExec

/-! Properties of the iterations of an action: C33–C36 and C80–C85. -/

namespace Distbench
open Iterations Tables Spec

/-! ### parameters of the kinds of actions -/

theorem limit_eq (a : Action) (now : Int) (w : Bool) :
    (params a now w).limit = (limitOf a).getD (2 ^ 63 - 1) := by
  unfold params limitOf
  cases a.iterations <;> rfl

theorem copies_eq (a : Action) (now : Int) (w : Bool) : (params a now w).copies =
    narrow (min (a.iterations.getD {}).maxParallelIterations (params a now w).limit) := rfl

theorem activity_eq_false {a : Action} (now : Int) (w : Bool) (h : ∀ name, a.kind ≠ .activity name) :
    (params a now w).activity = false := by
  unfold params
  cases hk : a.kind with
  | activity n => exact absurd hk (h n)
  | _ => simp

structure ClosedParams (p : Params) (par count : Int) : Prop where
  openLoop : p.openLoop = false
  activity : p.activity = false
  limit : p.limit = count
  copies : p.copies = min par count
  positive : 0 < p.copies
  le : p.copies ≤ p.limit

theorem closed_params {a : Action} {par : Int} (h : ClosedLoop a par) (now : Int) (w : Bool) :
    ClosedParams (params a now w) par ((limitOf a).getD (2 ^ 63 - 1)) := by
  have hl := limit_eq a now w
  have hc := copies_eq a now w
  rw [h.parallel, hl] at hc
  have hp := h.positive
  have hpos : 1 ≤ (limitOf a).getD (2 ^ 63 - 1) ∧ min par ((limitOf a).getD (2 ^ 63 - 1)) < 2 ^ 31 := by
    cases hx : limitOf a with
    | none => have := h.unlimited hx; simp only [Option.getD]; omega
    | some n => have := h.count n hx; simp only [Option.getD]; omega
  rw [narrow_id (by unfold InI32; omega)] at hc
  refine ⟨?_, activity_eq_false now w h.notActivity, hl, hc, by omega, by omega⟩
  show (a.iterations.getD {}).openLoopIntervalNs.isSome = false
  rw [h.notOpen]; rfl

theorem timeLimit_eq {a : Action} (h : NoTimeLimit a) (now : Int) (w : Bool) :
    (params a now w).timeLimit = .future := by
  show (match (a.iterations.getD {}).maxDurationUs with
    | none => Time.future
    | some us => .at (now + 1000 * us)) = .future
  rw [NoTimeLimit] at h
  rw [h]

/-- A closed loop can be initiated. -/
theorem closed_initiate {a : Action} {par : Int} (h : ClosedLoop a par) (now : Int) (w b : Bool)
    (spread : Int) : ∃ s, initiate a now w b spread = .ok s := by
  have hp := closed_params h now w
  unfold initiate begin
  simp only [hp.openLoop, Bool.false_eq_true, if_false]
  rw [if_neg (by have := hp.positive; omega)]
  exact ⟨_, rfl⟩

theorem closed_executes {a : Action} {par : Int} (h : ClosedLoop a par) {now : Int} {w b : Bool}
    {n : Nat} {s : State} (he : Executes a now w b n s) :
    Closed (params a now w) s ∧ Window (params a now w) s := by
  obtain ⟨sp, s0, hi, hr⟩ := he
  have hp := closed_params h now w
  exact ⟨closed_run hp.openLoop hp.activity (closed_begin hp.openLoop hp.le hi) hr,
    window_run hp.openLoop hp.activity (window_begin hp.openLoop hi) hr⟩

theorem quiet_iff {p : Params} {s : State} (h : Closed p s) (hc : 0 < p.copies) :
    Quiet p s ↔ reports s.log = 1 := by
  constructor
  · rintro ⟨h1, h2⟩
    have hp := h.pend
    have := (h.call hc).1
    rw [h1] at hp this
    simp only [runs, reads, restarts, calls] at hp this
    have := this (by omega)
    omega
  · intro hr
    have h1 := h.call hc
    have h2 := h.issued
    have h3 := h.pend
    have hn : s.next = s.finished := by
      rcases Decidable.em (s.next = s.finished) with h | h
      · exact h
      · have := h1.2 h; omega
    have := h1.1 hn
    refine ⟨?_, by omega⟩
    cases ht : s.threads with
    | nil => rfl
    | cons t r =>
      rw [ht] at h3 this
      cases t <;> simp only [runs, reads, restarts, calls] at h3 this <;> omega

/-! ### C33 -/

/-- C33.  Without cancellation and without a time limit, a closed-loop action with
`max_iteration_count` n has, once nothing of it is under way, started and ended each of the
iterations 0 … n-1 exactly once, no others, and reported its end exactly once. -/
theorem C33_exact (a : Action) (par n : Int) (h : ClosedLoop a par) (hn : limitOf a = some n)
    (ht : NoTimeLimit a) (now : Int) (w b : Bool) (m : Nat) (s : State)
    (he : Executes a now w b m s) (hc : s.canceled = false) (hq : Quiet (params a now w) s) :
    (∀ k, starts k s.log = if 0 ≤ k ∧ k < n then 1 else 0) ∧
    (∀ k, ends k s.log = if 0 ≤ k ∧ k < n then 1 else 0) ∧ reports s.log = 1 := by
  obtain ⟨h1, h2⟩ := closed_executes h he
  have hp := closed_params h now w
  rw [hn] at hp
  have hlim := hp.limit
  simp only [Option.getD] at hlim
  have hr := (quiet_iff h1 hp.positive).1 hq
  obtain ⟨q1, q2⟩ := hq
  have hpend := h1.pend
  have hnum := h1.num
  have hrun := h1.book.runOf
  rw [q1] at hpend hnum hrun
  simp only [runs, reads, restarts, restartsOf, runsOf] at hpend hnum hrun
  have hnext : s.next = n := by
    have := hp.positive
    rcases h2.full hc (timeLimit_eq ht now w) with h | h <;> omega
  have hst : ∀ k, starts k s.log = if 0 ≤ k ∧ k < n then 1 else 0 := by
    intro k
    have := hnum k
    rw [if_neg (by omega), hnext] at this
    simpa using this
  exact ⟨hst, fun k => by have := hrun k; rw [← hst k]; omega, hr⟩

/-- C33, at all times, cancelled or not: no iteration is started twice, or outside 0 … n-1, the end
is not reported twice, and no counter overflows. -/
theorem C33_never_more (a : Action) (par n : Int) (h : ClosedLoop a par) (hn : limitOf a = some n)
    (now : Int) (w b : Bool) (m : Nat) (s : State) (he : Executes a now w b m s) :
    (∀ k, ends k s.log ≤ starts k s.log ∧ starts k s.log ≤ if 0 ≤ k ∧ k < n then 1 else 0) ∧
    reports s.log ≤ 1 ∧ s.overflow = false := by
  obtain ⟨h1, -⟩ := closed_executes h he
  have hp := closed_params h now w
  rw [hn] at hp
  have hlim := hp.limit
  simp only [Option.getD] at hlim
  have hl := h1.lim
  refine ⟨fun k => ⟨by have := h1.book.runOf k; omega, ?_⟩, ?_, ?_⟩
  · have := h1.num k
    grind
  · have := h1.call hp.positive
    rcases Decidable.em (s.next = s.finished) with h | h
    · have := this.1 h; omega
    · have := this.2 h; omega
  · exact h1.ub (by have := h.count n hn; omega)

/-- C33, the end is reported only when all n iterations have ended. -/
theorem C33_report_last (a : Action) (par n : Int) (h : ClosedLoop a par) (hn : limitOf a = some n)
    (ht : NoTimeLimit a) (now : Int) (w b : Bool) (m : Nat) (s : State)
    (he : Executes a now w b m s) (hc : s.canceled = false) (hrep : .allDone ∈ s.log) :
    ∀ k, 0 ≤ k → k < n → ends k s.log = 1 := by
  obtain ⟨h1, -⟩ := closed_executes h he
  have hp := closed_params h now w
  have h3 := (C33_never_more a par n h hn now w b m s he).2.1
  have := reports_pos hrep
  have hq := (quiet_iff h1 hp.positive).2 (by omega)
  intro k h4 h5
  rw [(C33_exact a par n h hn ht now w b m s he hc hq).2.1 k, if_pos ⟨h4, h5⟩]

/-- C33, it comes to an end: while the action is under way a step is possible, and there are at
most 3n + 1 steps in total, whatever the order. -/
theorem C33_ends (a : Action) (par n : Int) (h : ClosedLoop a par) (hn : limitOf a = some n)
    (now : Int) (w b : Bool) (m : Nat) (s : State) (he : Executes a now w b m s) :
    (m : Int) ≤ 3 * n + 1 ∧ (¬ Quiet (params a now w) s → ∃ s', Work (params a now w) s s') := by
  obtain ⟨h1, -⟩ := closed_executes h he
  have hp := closed_params h now w
  obtain ⟨-, g2, g3⟩ := C33_never_more a par n h hn now w b m s he
  constructor
  · obtain ⟨sp, s0, hi, hr⟩ := he
    have hcnt := run_count hr g3
    obtain ⟨e1, -, -, -, -, e6⟩ := begin_log hi
    rw [e1, e6] at hcnt
    simp only [allStarts, allEnds, reports] at hcnt
    rw [hn] at hp
    have hlim := hp.limit
    simp only [Option.getD] at hlim
    have := h1.lim
    have := h1.total
    have := h1.issued
    have := h1.book.run
    have := h1.book.fin
    omega
  · intro hq
    by_cases ht : s.threads = []
    · have hlt : s.issued < (params a now w).copies := by
        have := h1.issued
        rcases Decidable.em (s.issued = (params a now w).copies) with h | h
        · exact absurd ⟨ht, h⟩ hq
        · omega
      exact ⟨_, .issue g3 hp.openLoop hlt (fun _ => ht)⟩
    · exact thread_step g3 ht

/-- Three iterations of an RPC, two at a time. -/
def threeAction : Action :=
  { name := "three".toList, kind := .rpc "query".toList
    iterations := some { maxIterationCount := some 3, maxParallelIterations := 2 } }

theorem threeAction_closed : ClosedLoop threeAction 2 :=
  ⟨by simp [threeAction], rfl, rfl, by decide, by simp [threeAction, limitOf], by simp [threeAction, limitOf]⟩

/-- A schedule of `threeAction` up to its end. -/
def threeCmds : List Cmd :=
  [.issue, .complete 0, .issue, .locked 0, .complete 1, .restart 0, .locked 1, .complete 0, .locked 0,
   .allDone 0]

example : limitOf threeAction = some 3 ∧ NoTimeLimit threeAction ∧
    ∃ m s, Executes threeAction 5 false false m s ∧ s.canceled = false ∧
      Quiet (params threeAction 5 false) s ∧ .allDone ∈ s.log := by
  refine ⟨rfl, rfl, ?_⟩
  obtain ⟨m, s, h1, h2⟩ := shows_executes (a := threeAction) (now := 5) (w := false) (b := false)
    (cmds := threeCmds)
    (q := fun s => decide (s.canceled = false ∧ s.threads = [] ∧
      s.issued = (params threeAction 5 false).copies ∧ .allDone ∈ s.log)) (by decide +kernel)
  have h2 := of_decide_eq_true h2
  exact ⟨m, s, h1, h2.1, ⟨h2.2.1, h2.2.2.1⟩, h2.2.2.2⟩

/-! ### C34 -/

/-- C34.  No more than `max_parallel_iterations` iterations of a closed-loop action, and no more
than its `max_iteration_count`, are under way at any time, cancelled or not. -/
theorem C34_bound (a : Action) (par : Int) (h : ClosedLoop a par) (now : Int) (w b : Bool) (m : Nat)
    (s : State) (he : Executes a now w b m s) :
    0 ≤ inFlight s.log ∧ inFlight s.log ≤ par ∧ ∀ n, limitOf a = some n → inFlight s.log ≤ n := by
  obtain ⟨h1, h2⟩ := closed_executes h he
  have hp := closed_params h now w
  have g1 := h1.pend
  have g2 := h2.pend
  have g3 := h1.book.run
  have g4 := hp.copies
  have g5 := h1.issued
  unfold inFlight
  refine ⟨by omega, by omega, ?_⟩
  intro n hn
  rw [hn] at g4
  simp only [Option.getD] at g4
  omega

/-- C34, the other direction.  Without cancellation and time limit, once the first iterations have
been started and no thread is between two iterations, exactly `max_parallel_iterations` are under
way, or as many as are left. -/
theorem C34_full (a : Action) (par : Int) (h : ClosedLoop a par) (ht : NoTimeLimit a)
    (now : Int) (w b : Bool) (m : Nat) (s : State) (he : Executes a now w b m s)
    (hc : s.canceled = false) (hissued : s.issued = (params a now w).copies)
    (hrun : ∀ t ∈ s.threads, ∃ k, t = .running k) :
    (∀ n, limitOf a = some n → inFlight s.log = min par (n - allEnds s.log)) ∧
    (limitOf a = none → inFlight s.log = par) := by
  obtain ⟨h1, h2⟩ := closed_executes h he
  have hp := closed_params h now w
  have hz : ∀ l : List Thread, (∀ t ∈ l, ∃ k, t = .running k) → reads l = 0 ∧ restarts l = 0 := by
    intro l
    induction l with
    | nil => intro _; exact ⟨rfl, rfl⟩
    | cons t r ih =>
      intro hl
      obtain ⟨k, rfl⟩ := hl t List.mem_cons_self
      have := ih (fun t ht => hl t (List.mem_cons_of_mem _ ht))
      simpa [reads, restarts] using this
  obtain ⟨z1, z2⟩ := hz _ hrun
  have g1 := h1.pend
  have g3 := h1.book.run
  have g4 := hp.copies
  have g5 := h1.book.fin
  have g6 := h2.full hc (timeLimit_eq ht now w)
  have g7 := hp.limit
  have g8 := h1.lim
  have g9 := h2.pend
  unfold inFlight
  constructor
  · intro n hn
    rw [hn] at g4 g7
    simp only [Option.getD] at g4 g7
    omega
  · intro hn
    rw [hn] at g4 g7
    simp only [Option.getD] at g4 g7
    have hpar := h.unlimited hn
    have hbig : (2 : Int) ^ 31 ≤ s.finished ∨ s.next - s.finished = (params a now w).copies := by
      omega
    rcases hbig with hbig | hbig
    · exfalso
      obtain ⟨sp, s0, hi, hr⟩ := he
      have hfin : ∀ {m s}, Run (params a now w) s0 m s → s.finished < 2 ^ 31 := by
        intro m s hr
        induction hr with
        | start => rw [(begin_log hi).2.2.2.2.2]; omega
        | idle _ hx ih => rw [(idle_frame hx).2.2.1]; exact ih
        | work _ hx ih =>
          cases hx with
          | @locked l1 l2 k b next finished d k1 k2 k3 =>
            obtain ⟨f1, f2, -⟩ := finishLocked_some k3
            have : finished < 2 ^ 31 := by unfold InI32 at f2; omega
            cases d <;> exact this
          | _ => exact ih
      have := hfin hr
      omega
    · omega

example : ∃ m s, Executes threeAction 5 false false m s ∧ inFlight s.log = 2 ∧
    s.canceled = false ∧ s.issued = (params threeAction 5 false).copies ∧
    (∀ t ∈ s.threads, ∃ k, t = .running k) ∧ s.overflow = false := by
  obtain ⟨m, s, h1, h2⟩ := shows_executes (a := threeAction) (now := 5) (w := false) (b := false)
    (cmds := threeCmds.take 4 ++ [.restart 0])
    (q := fun s => decide (inFlight s.log = 2 ∧ s.canceled = false ∧
      s.issued = (params threeAction 5 false).copies ∧ s.threads = [.running 2, .running 1] ∧
      s.overflow = false)) (by decide +kernel)
  have h2 := of_decide_eq_true h2
  exact ⟨m, s, h1, h2.1, h2.2.1, h2.2.2.1, by rw [h2.2.2.2.1]; simp, h2.2.2.2.2⟩

/-! ### C35 -/

theorem aboutToStart_eq (l : List Thread) : aboutToStart l = restarts l + readsNo l := by
  induction l with
  | nil => rfl
  | cons t r ih =>
    cases t with
    | read k c => cases c <;> simp [aboutToStart, restarts, readsNo, ih] <;> omega
    | _ => simp [aboutToStart, restarts, readsNo, ih] <;> omega

theorem threads_length (l : List Thread) : runs l + reads l + restarts l ≤ l.length := by
  induction l with
  | nil => simp [runs, reads, restarts]
  | cons t r ih => cases t <;> simp only [runs, reads, restarts, List.length_cons] <;> omega

/-- C35, cancellation.  From the state in which the traffic is cancelled, only those iterations of a
closed-loop action are started whose start is already under way: what is left of the first batch,
and the threads that have already passed the check of the flag. -/
theorem C35_cancel (a : Action) (par : Int) (h : ClosedLoop a par) (now : Int) (w b : Bool)
    (m n : Nat) (s s' : State) (he : Executes a now w b m s) (hc : s.canceled = true)
    (hr : Run (params a now w) s n s') :
    (allStarts s'.log : Int) ≤
      allStarts s.log + ((params a now w).copies - s.issued) + aboutToStart s.threads := by
  have hp := closed_params h now w
  have h1 := (closed_executes h he).1
  have h2 := closed_run hp.openLoop hp.activity h1 hr
  have := (cancel_run hp.openLoop hp.activity hc hr).2
  rw [aboutToStart_eq]
  have := h2.issued
  omega

/-- C35, time limit.  Once `max_duration_us` have passed, likewise. -/
theorem C35_time_limit (a : Action) (par : Int) (h : ClosedLoop a par) (now : Int) (w b : Bool)
    (m n : Nat) (s s' : State) (it : Tables.Iterations) (us : Int) (hit : a.iterations = some it)
    (hus : it.maxDurationUs = some us) (he : Executes a now w b m s)
    (hx : now + 1000 * us < s.now) (hr : Run (params a now w) s n s') :
    (allStarts s'.log : Int) ≤
      allStarts s.log + ((params a now w).copies - s.issued) + aboutToStart s.threads := by
  have hp := closed_params h now w
  have h1 := (closed_executes h he).1
  have h2 := closed_run hp.openLoop hp.activity h1 hr
  have htl : (params a now w).timeLimit = .at (now + 1000 * us) := by
    unfold params
    simp [hit, hus]
  have := (expired_run hp.openLoop hp.activity
    (by rw [htl]; simp only [Time.lt, decide_eq_true_eq]; exact hx) hr).2
  rw [aboutToStart_eq]
  have := h2.issued
  omega

/-- C35, in every execution of a closed-loop action, with any limits, cancelled or not: the end is
reported at most once, and it has been reported exactly when nothing is under way any more. -/
theorem C35_once (a : Action) (par : Int) (h : ClosedLoop a par) (now : Int) (w b : Bool)
    (m : Nat) (s : State) (he : Executes a now w b m s) :
    reports s.log ≤ 1 ∧ (reports s.log = 1 ↔ Quiet (params a now w) s) ∧
    (reports s.log = 1 → inFlight s.log = 0 ∧ ∀ s', ¬ Work (params a now w) s s') := by
  have hp := closed_params h now w
  have h1 := (closed_executes h he).1
  have hq := quiet_iff h1 hp.positive
  refine ⟨?_, hq.symm, ?_⟩
  · have := h1.call hp.positive
    rcases Decidable.em (s.next = s.finished) with h | h
    · have := this.1 h; omega
    · have := this.2 h; omega
  · intro hr
    obtain ⟨q1, q2⟩ := hq.2 hr
    refine ⟨?_, ?_⟩
    · have := h1.book.run
      rw [q1] at this
      simp only [runs] at this
      unfold inFlight; omega
    · intro s' hw
      cases hw with
      | issue k1 k2 k3 => omega
      | complete k1 k2 => rw [q1] at k2; simp at k2
      | locked k1 k2 => rw [q1] at k2; simp at k2
      | overflow k1 k2 => rw [q1] at k2; simp at k2
      | restart k1 k2 => rw [q1] at k2; simp at k2
      | allDone k1 k2 => rw [q1] at k2; simp at k2
      | run k1 k2 => rw [hp.activity] at k2; simp at k2
      | tick gap k1 k2 => rw [hp.openLoop] at k2; simp at k2
      | tickOverflow gap k1 k2 => rw [hp.openLoop] at k2; simp at k2

/-- C35, after cancellation the action comes to its end: while something is under way a step is
possible, and the number of further steps is bounded by what is under way. -/
theorem C35_ends (a : Action) (par : Int) (h : ClosedLoop a par) (now : Int) (w b : Bool)
    (m n : Nat) (s s' : State) (he : Executes a now w b m s) (hc : s.canceled = true)
    (hr : Run (params a now w) s n s') (hu : s'.overflow = false) :
    (n : Int) ≤ 3 * ((params a now w).copies - s.issued) + 4 * s.threads.length + 1 ∧
    (¬ Quiet (params a now w) s' → ∃ s'', Work (params a now w) s' s'') := by
  have hp := closed_params h now w
  have h1 := (closed_executes h he).1
  have h2 := closed_run hp.openLoop hp.activity h1 hr
  have hc35 := C35_cancel a par h now w b m n s s' he hc hr
  have hcnt := run_count hr hu
  refine ⟨?_, ?_⟩
  · have g1 := h1.book.run
    have g2 := h1.book.fin
    have g3 := h2.book.run
    have g4 := h2.book.fin
    have g5 : reports s'.log ≤ 1 := by
      have := h2.call hp.positive
      rcases Decidable.em (s'.next = s'.finished) with h | h
      · have := this.1 h; omega
      · have := this.2 h; omega
    have := h1.issued
    have := (threads_length s.threads)
    have := readsNo_le s.threads
    rw [aboutToStart_eq] at hc35
    omega
  · intro hq
    by_cases ht : s'.threads = []
    · have hlt : s'.issued < (params a now w).copies := by
        have := h2.issued
        rcases Decidable.em (s'.issued = (params a now w).copies) with h | h
        · exact absurd ⟨ht, h⟩ hq
        · omega
      exact ⟨_, .issue hu hp.openLoop hlt (fun _ => ht)⟩
    · exact thread_step hu ht

/-- An unlimited closed loop with a duration, four at a time. -/
def loopAction : Action :=
  { name := "loop".toList, kind := .rpc "query".toList
    iterations := some { maxDurationUs := some 10, maxParallelIterations := 4 } }

theorem loopAction_closed : ClosedLoop loopAction 4 :=
  ⟨by simp [loopAction], rfl, rfl, by decide, by simp [loopAction, limitOf], fun _ => by decide⟩

/-- Cancelled, and the time is up, while one is ending and three are running; one more is started. -/
example : ∃ m s n s', Executes loopAction 0 false false m s ∧ s.canceled = true ∧
    0 + 1000 * 10 < s.now ∧ inFlight s.log = 3 ∧ aboutToStart s.threads = 1 ∧
    Run (params loopAction 0 false) s n s' ∧ s'.overflow = false ∧ allStarts s'.log = 5 ∧
    reports s'.log = 1 := by
  obtain ⟨m, s, h1, h2⟩ := shows_executes (a := loopAction) (now := 0) (w := false) (b := false)
    (cmds := [.issue, .issue, .complete 0, .locked 0, .issue, .issue, .cancel, .time 10001])
    (q := fun s => decide (s.canceled = true ∧ 0 + 1000 * 10 < s.now ∧ inFlight s.log = 3 ∧
      aboutToStart s.threads = 1) && (match exec (params loopAction 0 false) s
        [.complete 3, .locked 3, .restart 0, .complete 1, .locked 1, .complete 1, .locked 1,
         .complete 0, .locked 0, .allDone 0] with
        | some s' => decide (s'.overflow = false ∧ allStarts s'.log = 5 ∧ reports s'.log = 1)
        | none => false)) (by decide +kernel)
  simp only [Bool.and_eq_true] at h2
  obtain ⟨h2, h3⟩ := h2
  have h2 := of_decide_eq_true h2
  split at h3
  · rename_i s' hs'
    have h3 := of_decide_eq_true h3
    obtain ⟨n, hn⟩ := exec_run .start hs'
    exact ⟨m, s, n, s', h1, h2.1, h2.2.1, h2.2.2.1, h2.2.2.2, hn, h3.1, h3.2.1, h3.2.2⟩
  · simp at h3

/-! ### C36 -/

/-- C36.  An iteration of any action is marked as warmup exactly if the list it belongs to is being
run for warmup, or its number is less than `warmup_iterations`. -/
theorem C36_iteration (a : Action) (now : Int) (lw b : Bool) (m : Nat) (s : State)
    (he : Executes a now lw b m s) (k : Int) (w : Bool) (t : Int)
    (hs : .started k w t ∈ s.log) :
    w = true ↔ lw = true ∨ k < (a.iterations.getD {}).warmupIterations := by
  obtain ⟨sp, s0, hi, hr⟩ := he
  rw [warm_run (begin_log hi).1 hr k w t hs]
  show (lw || decide (k < (a.iterations.getD {}).warmupIterations)) = true ↔ _
  rw [Bool.or_eq_true, decide_eq_true_eq]

/-- C36, along any chain of RPCs and nested lists from the list of the service: the list at the end
is run for warmup exactly if some iteration on the way was one of the first `warmup_iterations` of
its action. -/
theorem C36_chain (hops : List (Via × Int × Int)) :
    (hops.foldl (fun l h => hop l h.1 h.2.1 h.2.2) topLevel).list = true ↔
      ∃ h ∈ hops, h.2.1 < h.2.2 := by
  have key : ∀ (hops : List (Via × Int × Int)) (l : ListWarmup),
      (l.request = true → l.list = true) →
      ((hops.foldl (fun l h => hop l h.1 h.2.1 h.2.2) l).list = true ↔
        l.list = true ∨ ∃ h ∈ hops, h.2.1 < h.2.2) := by
    intro hops
    induction hops with
    | nil => intro l _; simp
    | cons h r ih =>
      intro l hl
      simp only [List.foldl_cons, List.mem_cons, exists_eq_or_imp]
      have hx : (hop l h.1 h.2.1 h.2.2).list = true ↔ l.list = true ∨ h.2.1 < h.2.2 := by
        cases hv : h.1 with
        | rpc => simp [hop, enterList]
        | list =>
          simp only [hop, enterList, Bool.or_eq_true, decide_eq_true_eq]
          constructor
          · rintro (h | h)
            · exact h
            · exact .inl (hl h)
          · exact .inl
      have hinv : (hop l h.1 h.2.1 h.2.2).request = true → (hop l h.1 h.2.1 h.2.2).list = true := by
        cases hv : h.1 with
        | rpc => simp [hop, enterList]
        | list =>
          intro hrq
          have hrq : l.request = true := hrq
          simp [hop, enterList, hrq]
      rw [ih _ hinv, hx, or_assoc]
  rw [key hops topLevel (by decide)]
  simp [topLevel, enterList]

example : (([(.list, 3, 1), (.rpc, 0, 2), (.list, 4, 0)] : List (Via × Int × Int)).foldl
    (fun l h => hop l h.1 h.2.1 h.2.2) topLevel).list = true := by decide

/-- A loop with two warmup iterations. -/
example : ∃ m s, Executes
    { threeAction with iterations := some { maxIterationCount := some 3, warmupIterations := 2 } }
    0 false false m s ∧ .started 1 true 0 ∈ s.log ∧ .started 2 false 0 ∈ s.log := by
  obtain ⟨m, s, h1, h2⟩ := shows_executes
    (a := { threeAction with iterations := some { maxIterationCount := some 3, warmupIterations := 2 } })
    (now := 0) (w := false) (b := false)
    (cmds := [.issue, .complete 0, .locked 0, .restart 0, .complete 0, .locked 0, .restart 0])
    (q := fun s => decide (.started 1 true 0 ∈ s.log ∧ .started 2 false 0 ∈ s.log)) (by decide +kernel)
  exact ⟨m, s, h1, of_decide_eq_true h2⟩

end Distbench
