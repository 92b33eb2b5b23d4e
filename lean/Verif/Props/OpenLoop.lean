import Verif.Props.Iterations

/-! Properties of activities, of open-loop actions and of unusual iteration counts: C80–C85. -/

namespace Distbench
open Iterations Tables Spec

/-! ### C80: activities -/

theorem activity_params {a : Action} {n : Int} (h : RepeatedActivity a n) (now : Int) (w : Bool) :
    (params a now w).openLoop = false ∧ (params a now w).activity = true ∧
    (params a now w).limit = n ∧ 0 < (params a now w).copies ∧
    (params a now w).copies ≤ (params a now w).limit := by
  have hl := limit_eq a now w
  have hc := copies_eq a now w
  have hs := h.sensible
  have hp := h.positive
  rw [h.count] at hl
  simp only [Option.getD] at hl
  rw [hl] at hc
  rw [narrow_id (by unfold InI32; omega)] at hc
  refine ⟨?_, ?_, hl, by omega, by omega⟩
  · show (a.iterations.getD {}).openLoopIntervalNs.isSome = false
    rw [h.notOpen]; rfl
  · obtain ⟨name, hk⟩ := h.isActivity
    show (match a.kind with | .activity _ => true | _ => false) = true
    rw [hk]

theorem activity_executes {a : Action} {n : Int} (h : RepeatedActivity a n) {now : Int} {w b : Bool}
    {m : Nat} {s : State} (he : Executes a now w b m s) : Activity (params a now w) s := by
  obtain ⟨sp, s0, hi, hr⟩ := he
  obtain ⟨h1, h2, h3, h4, h5⟩ := activity_params h now w
  exact activity_run h1 h2 h4 h5 (activity_begin h1 h4 h5 hi) hr

/-- C80.  Without cancellation and time limit, an activity with `max_iteration_count` n never runs
more than n times, one run at a time, and reports its end at most once, when it has run n times. -/
theorem C80_exact (a : Action) (n : Int) (h : RepeatedActivity a n) (ht : NoTimeLimit a)
    (now : Int) (w b : Bool) (m : Nat) (s : State) (he : Executes a now w b m s)
    (hc : s.canceled = false) :
    (allStarts s.log : Int) ≤ n ∧ inFlight s.log ≤ 1 ∧ reports s.log ≤ 1 ∧
    (.allDone ∈ s.log → allStarts s.log = n ∧ allEnds s.log = n) ∧ s.overflow = false := by
  have h1 := activity_executes h he
  obtain ⟨p1, p2, p3, p4, p5⟩ := activity_params h now w
  have htl := timeLimit_eq ht now w
  have hb := h1.bound hc htl
  have hcall := h1.call hc htl
  have g1 := h1.book.run
  have g2 := h1.book.fin
  rw [p3] at hb hcall
  refine ⟨hb, ?_, ?_, ?_, h1.ub hc htl (by have := h.sensible; omega)⟩
  · unfold inFlight
    rcases h1.one with h | ⟨t, h⟩
    · rw [h] at g1; simp only [runs] at g1; omega
    · rw [h] at g1
      cases t <;> simp only [runs] at g1 <;> omega
  · rcases Decidable.em (s.finished = n) with h | h
    · have := hcall.1 h; omega
    · have := hcall.2 h; omega
  · intro hm
    have := reports_pos hm
    have hf : s.finished = n := by
      rcases Decidable.em (s.finished = n) with h | h
      · exact h
      · have := hcall.2 h; omega
    omega

/-- C80, it comes to an end: until the end is reported a step is possible, and there are at most
3n + 1 steps. -/
theorem C80_ends (a : Action) (n : Int) (h : RepeatedActivity a n) (ht : NoTimeLimit a)
    (now : Int) (w b : Bool) (m : Nat) (s : State) (he : Executes a now w b m s)
    (hc : s.canceled = false) :
    (m : Int) ≤ 3 * n + 1 ∧ (.allDone ∉ s.log → ∃ s', Work (params a now w) s s') := by
  have h1 := activity_executes h he
  obtain ⟨p1, p2, p3, p4, p5⟩ := activity_params h now w
  obtain ⟨e1, -, e3, -, e5⟩ := C80_exact a n h ht now w b m s he hc
  constructor
  · obtain ⟨sp, s0, hi, hr⟩ := he
    have hcnt := run_count hr e5
    obtain ⟨f1, -, -, -, -, f6⟩ := begin_log hi
    rw [f1, f6] at hcnt
    simp only [allStarts, allEnds, reports] at hcnt
    have := h1.book.run
    have := h1.book.fin
    omega
  · intro hm
    by_cases hth : s.threads = []
    · rcases Decidable.em (s.issued = (params a now w).copies) with h | h
      · exact ⟨_, .run e5 p2 p1 h hth hm⟩
      · exact ⟨_, .issue e5 p1 (by have := h1.issued; omega) (fun _ => hth)⟩
    · exact thread_step e5 hth

/-- An activity to be run three times. -/
def busyAction : Action :=
  { name := "busy".toList, kind := .activity "consume".toList
    iterations := some { maxIterationCount := some 3, maxParallelIterations := 2 } }

theorem busyAction_repeated : RepeatedActivity busyAction 3 :=
  ⟨⟨_, rfl⟩, rfl, by decide, rfl, by decide⟩

example : NoTimeLimit busyAction ∧ ∃ m s, Executes busyAction 0 false false m s ∧
    s.canceled = false ∧ .allDone ∈ s.log := by
  refine ⟨rfl, ?_⟩
  obtain ⟨m, s, h1, h2⟩ := shows_executes (a := busyAction) (now := 0) (w := false) (b := false)
    (cmds := [.issue, .complete 0, .locked 0, .issue, .complete 0, .locked 0, .run, .complete 0,
      .locked 0, .allDone 0])
    (q := fun s => decide (s.canceled = false ∧ .allDone ∈ s.log)) (by decide +kernel)
  exact ⟨m, s, h1, of_decide_eq_true h2⟩

/-! ### C81: open loops -/

theorem open_params {a : Action} {period n : Int} (h : OpenLoop a period n) (now : Int) (w : Bool) :
    (params a now w).openLoop = true ∧ (params a now w).activity = false ∧
    (params a now w).limit = n ∧ (params a now w).periodNs = period := by
  have hl := limit_eq a now w
  rw [h.count] at hl
  refine ⟨?_, activity_eq_false now w h.notActivity, hl, ?_⟩
  · show (a.iterations.getD {}).openLoopIntervalNs.isSome = true
    rw [h.interval]; rfl
  · show (a.iterations.getD {}).openLoopIntervalNs.getD 0 = period
    rw [h.interval]; rfl

theorem open_executes {a : Action} {period n : Int} (h : OpenLoop a period n) {now : Int} {w b : Bool}
    {m : Nat} {s : State} (he : Executes a now w b m s) : Open (params a now w) s := by
  obtain ⟨sp, s0, hi, hr⟩ := he
  obtain ⟨h1, h2, h3, -⟩ := open_params h now w
  exact open_run h1 (open_begin h1 (by have := h.sensible; omega) hi) hr

/-- C81.  An open-loop action with `max_iteration_count` n never starts an iteration twice, or one
outside 0 … n-1, whether it is cancelled or not. -/
theorem C81_never_more (a : Action) (period n : Int) (h : OpenLoop a period n) (now : Int)
    (w b : Bool) (m : Nat) (s : State) (he : Executes a now w b m s) :
    (∀ k, ends k s.log ≤ starts k s.log ∧ starts k s.log ≤ if 0 ≤ k ∧ k < n then 1 else 0) ∧
    (∀ k, starts k s.log = if 0 ≤ k ∧ k < (allStarts s.log : Int) then 1 else 0) ∧
    s.overflow = false := by
  have h1 := open_executes h he
  obtain ⟨p1, p2, p3, p4⟩ := open_params h now w
  have hl := h1.lim
  have ht := h1.total
  rw [p3] at hl
  refine ⟨fun k => ⟨by have := h1.book.runOf k; omega, ?_⟩, fun k => ?_, h1.ub (by have := h.sensible; omega)⟩
  · have := h1.num k
    grind
  · rw [ht]; exact h1.num k

/-- C81, the end.  Without cancellation the end is reported at most once, only when nothing is under
way and the action is over (all n iterations were started, or the time of the next one is beyond
the time limit); and when nothing is under way after all n iterations were started, it has been. -/
theorem C81_once (a : Action) (period n : Int) (h : OpenLoop a period n) (now : Int) (w b : Bool)
    (m : Nat) (s : State) (he : Executes a now w b m s) (hc : s.canceled = false) :
    reports s.log ≤ 1 ∧
    (.allDone ∈ s.log → inFlight s.log = 0 ∧
      (allStarts s.log = n ∨ Time.lt (params a now w).timeLimit s.nextTime = true)) ∧
    (allStarts s.log = n → s.threads = [] → reports s.log = 1) ∧
    (0 < allStarts s.log → Time.lt (params a now w).timeLimit s.nextTime = true → s.threads = [] →
      reports s.log = 1) := by
  have h1 := open_executes h he
  obtain ⟨p1, p2, p3, p4⟩ := open_params h now w
  have hcall := h1.call hc
  have ht := h1.total
  have hp := h1.pend
  have hs := h.sensible
  refine ⟨?_, ?_, ?_, ?_⟩
  · rcases Classical.em (Over (params a now w) s ∧ s.next = s.finished ∧ 0 < s.next) with h | h
    · have := hcall.1 h; omega
    · have := hcall.2 h; omega
  · intro hm
    have := reports_pos hm
    have hx : Over (params a now w) s ∧ s.next = s.finished ∧ 0 < s.next := by
      rcases Classical.em (Over (params a now w) s ∧ s.next = s.finished ∧ 0 < s.next) with h | h
      · exact h
      · have := hcall.2 h; omega
    obtain ⟨hx1, hx2, hx3⟩ := hx
    refine ⟨?_, ?_⟩
    · have := h1.book.run
      unfold inFlight
      omega
    · rcases hx1 with h | h
      · left; omega
      · exact .inr h
  · intro h2 h3
    rw [h3] at hcall hp
    simp only [calls, runs, reads] at hcall hp
    have := hcall.1 ⟨.inl (by omega), by omega, by omega⟩
    omega
  · intro h2 h4 h3
    rw [h3] at hcall hp
    simp only [calls, runs, reads] at hcall hp
    have := hcall.1 ⟨.inr h4, by omega, by omega⟩
    omega

/-- C81, progress: while an iteration is under way a step is possible, and if the next one is due
and fewer than n were started, then it can be started. -/
theorem C81_progress (a : Action) (period n : Int) (h : OpenLoop a period n) (now : Int) (w b : Bool)
    (m : Nat) (s : State) (he : Executes a now w b m s) :
    (s.threads ≠ [] → ∃ s', Work (params a now w) s s') ∧
    (0 ≤ period → (allStarts s.log : Int) < n → Time.lt s.nextTime (.at s.now) = true →
      ∃ s', Work (params a now w) s s' ∧ allStarts s'.log = allStarts s.log + 1) := by
  have h1 := open_executes h he
  obtain ⟨p1, p2, p3, p4⟩ := open_params h now w
  have hu := (C81_never_more a period n h now w b m s he).2.2
  refine ⟨fun ht => thread_step hu ht, ?_⟩
  intro hper hlt hdue
  have ht := h1.total
  have hs := h.sensible
  have hb := h1.book.nonneg
  refine ⟨_, .tick (k := s.next) period hu p1 hdue ?_ ?_ ?_, ?_⟩
  · split
    · exact hper
    · exact p4.symm
  · simp only [openTick]
    rw [if_neg (by rw [p3]; omega)]
  · unfold InI32; omega
  · simp only [startIteration, allStarts]; omega

/-! ### C82: when the iterations of an open loop are started -/

/-- C82.  With a constant interval, iteration k of an open-loop action starts after
t₀ + k · interval, where t₀ is the time the action was initiated; and only iteration 0 may be due
after the time limit. -/
theorem C82_constant (a : Action) (period n : Int) (h : OpenLoop a period n)
    (hd : (a.iterations.getD {}).openLoopIntervalDistribution = "constant".toList) (now : Int)
    (w b : Bool) (m : Nat) (s : State) (he : Executes a now w b m s) (k : Int) (kw : Bool) (t : Int)
    (hs : .started k kw t ∈ s.log) :
    now + k * period < t ∧
    ∀ us, (a.iterations.getD {}).maxDurationUs = some us → 0 < k → k * period ≤ 1000 * us := by
  obtain ⟨p1, p2, p3, p4⟩ := open_params h now w
  obtain ⟨sp, s0, hi, hr⟩ := he
  have hexp : (params a now w).exponential = false := by
    show decide ((a.iterations.getD {}).openLoopIntervalDistribution = "exponential".toList) = false
    rw [hd]; decide
  have h0 := open_begin p1 (by have := h.sensible; omega) hi
  have hbeg : s0.nextTime = .at now ∧ s0.next = 0 := by
    have hi : begin (params a now w) (firstTime (a.iterations.getD {}).openLoopIntervalDistribution
      (params a now w).periodNs now sp) now b = .ok s0 := hi
    rw [hd, begin, if_pos p1, if_neg (by rw [p2]; simp)] at hi
    injection hi with hi
    subst hi
    exact ⟨rfl, rfl⟩
  have htimed : Timed (params a now w) now s0 := by
    refine ⟨fun _ => .inr (by rw [hbeg.1, hbeg.2]; simp), ?_⟩
    rw [(begin_log hi).1]; simp
  obtain ⟨g1, g2⟩ := (timed_run p1 hexp h0 htimed hr).started k kw t hs
  rw [p4] at g1 g2
  refine ⟨g1, ?_⟩
  intro us hus hk
  have htl : (params a now w).timeLimit = .at (now + 1000 * us) := by
    show (match (a.iterations.getD {}).maxDurationUs with
      | none => Time.future
      | some us => .at (now + 1000 * us)) = _
    rw [hus]
  rcases g2 with g2 | g2
  · omega
  · rw [htl] at g2
    simp only [Time.lt, decide_eq_false_iff_not] at g2
    omega

/-- C82, bursts: with `sync_burst` and a positive interval the first iteration is due at the next
multiple of the interval (of the time since the epoch) after the time the action was initiated, so
that services with the same clock and interval start together; the k-th is due k intervals
later. -/
theorem C82_sync_burst (a : Action) (period n : Int) (h : OpenLoop a period n) (hper : 0 < period)
    (hd : (a.iterations.getD {}).openLoopIntervalDistribution = "sync_burst".toList) (now : Int)
    (w b : Bool) : ∃ first, period ∣ first ∧ now < first ∧ first ≤ now + period ∧
      ∀ m s, Executes a now w b m s → ∀ k kw t, .started k kw t ∈ s.log →
        first + k * period < t := by
  obtain ⟨p1, p2, p3, p4⟩ := open_params h now w
  refine ⟨now / period * period + period, ?_, ?_, ?_, ?_⟩
  · exact Int.dvd_add (Int.dvd_mul_left ..) (Int.dvd_refl _)
  · have h1 := Int.ediv_mul_add_emod now period
    have h2 := Int.emod_lt_of_pos now hper
    omega
  · have h1 := Int.ediv_mul_add_emod now period
    have h2 := Int.emod_nonneg now (Int.ne_of_gt hper)
    omega
  · rintro m s ⟨sp, s0, hi, hr⟩ k kw t hs
    have hexp : (params a now w).exponential = false := by
      show decide ((a.iterations.getD {}).openLoopIntervalDistribution = "exponential".toList) = false
      rw [hd]; decide
    have h0 := open_begin p1 (by have := h.sensible; omega) hi
    have hbeg : s0.nextTime = .at (now / period * period + period) ∧ s0.next = 0 := by
      have hi : begin (params a now w) (firstTime (a.iterations.getD {}).openLoopIntervalDistribution
        (params a now w).periodNs now sp) now b = .ok s0 := hi
      rw [hd, begin, if_pos p1, if_neg (by rw [p2]; simp)] at hi
      injection hi with hi
      subst hi
      refine ⟨?_, rfl⟩
      simp only [firstTime, p4, if_true]
      rw [if_neg (by omega)]
      rfl
    have htimed : Timed (params a now w) (now / period * period + period) s0 := by
      refine ⟨fun _ => .inr (by rw [hbeg.1, hbeg.2]; simp), ?_⟩
      rw [(begin_log hi).1]; simp
    have := ((timed_run p1 hexp h0 htimed hr).started k kw t hs).1
    rw [p4] at this
    exact this

/-- Two iterations, 10 ns apart, of a nested list. -/
def tickAction (distribution : Str) : Action :=
  { name := "tick".toList, kind := .actionList "work".toList
    iterations := some { maxIterationCount := some 2, openLoopIntervalNs := some 10
                         openLoopIntervalDistribution := distribution } }

theorem tickAction_open (d : Str) : OpenLoop (tickAction d) 10 2 :=
  ⟨by simp [tickAction], rfl, rfl, by decide⟩

example : ∃ m s, Executes (tickAction "constant".toList) 3 false false m s ∧ s.canceled = false ∧
    .started 1 false 14 ∈ s.log ∧ .allDone ∈ s.log ∧ allStarts s.log = 2 ∧ s.threads = [] := by
  obtain ⟨m, s, h1, h2⟩ := shows_executes (a := tickAction "constant".toList) (now := 3) (w := false)
    (b := false)
    (cmds := [.time 4, .tick 10, .complete 0, .time 14, .locked 0, .tick 10, .complete 0, .locked 0,
      .allDone 0])
    (q := fun s => decide (s.canceled = false ∧ .started 1 false 14 ∈ s.log ∧ .allDone ∈ s.log ∧
      allStarts s.log = 2 ∧ s.threads = [])) (by decide +kernel)
  exact ⟨m, s, h1, of_decide_eq_true h2⟩

example : ∃ m s, Executes (tickAction "sync_burst".toList) 3 false false m s ∧
    .started 0 false 11 ∈ s.log := by
  obtain ⟨m, s, h1, h2⟩ := shows_executes (a := tickAction "sync_burst".toList) (now := 3)
    (w := false) (b := false) (cmds := [.time 11, .tick 10])
    (q := fun s => decide (.started 0 false 11 ∈ s.log)) (by decide +kernel)
  exact ⟨m, s, h1, of_decide_eq_true h2⟩

/-! ### C83: cancelled open loops -/

/-- What holds after cancellation while no further iteration is started. -/
structure Draining (p : Params) (s : State) : Prop where
  canceled : s.canceled = true
  noRestart : restarts s.threads = 0
  pend : s.next - s.finished = (runs s.threads + reads s.threads : Nat)
  seen : readsNo s.threads = 0
  call : (s.next = s.finished → calls s.threads + reports s.log = 1) ∧
    (s.next ≠ s.finished → calls s.threads + reports s.log = 0)

theorem starts_mono {p : Params} {s0 s : State} {n : Nat} (h : Run p s0 n s) :
    allStarts s0.log ≤ allStarts s.log := by
  induction h with
  | start => omega
  | work _ hw ih =>
    cases hw with
    | @locked l1 l2 k b next finished d k1 k2 k3 => cases d <;> exact ih
    | _ => simp only [startIteration, allStarts]; omega
  | idle _ hi ih => rw [(idle_frame hi).2.1]; exact ih

theorem draining_run {p : Params} {s0 s : State} {n : Nat} (ho : p.openLoop = true)
    (h0 : Draining p s0) (h : Run p s0 n s) (hs : allStarts s.log = allStarts s0.log) :
    Draining p s := by
  induction h with
  | start => exact h0
  | @idle n s s' hr hi ih =>
    obtain ⟨f1, f2, f3, f4, f5, f6, f7⟩ := idle_frame hi
    rw [f2] at hs
    obtain ⟨g1, g2, g3, g4, g5⟩ := ih hs
    exact ⟨f7 g1, by rw [f5]; exact g2, by rw [f5, f4, f3]; exact g3, by rw [f5]; exact g4,
      by rw [f5, f4, f3, f2]; exact g5⟩
  | @work n s s' hr hw ih =>
    have hmono := starts_mono hr
    cases hw with
    | issue k1 k2 => rw [ho] at k2; simp at k2
    | @complete l1 l2 k k1 k2 =>
      obtain ⟨g1, g2, g3, g4, g5⟩ := ih (by simpa [allStarts] using hs)
      rw [k2] at g2 g3 g4 g5
      simp only [restarts_append, restarts, runs_append, runs, reads_append, reads, readsNo_append,
        readsNo, calls_append, calls] at g2 g3 g4 g5
      refine ⟨g1, ?_, ?_, ?_, ?_⟩
      · simp only [restarts_append, restarts]; omega
      · simp only [runs_append, runs, reads_append, reads]; omega
      · rw [g1]; simp only [readsNo_append, readsNo]; omega
      · simp only [calls_append, calls, reports]; exact g5
    | @locked l1 l2 k b next finished d k1 k2 k3 =>
      obtain ⟨g1, g2, g3, g4, g5⟩ := ih (by cases d <;> exact hs)
      obtain ⟨e1, e2, e3, e4, e5⟩ := finishLocked_some k3
      simp only [ho, Bool.not_true, Bool.and_false, Bool.false_eq_true, if_false] at e4 e5
      subst e4
      rw [k2] at g2 g3 g4 g5
      have hb : b = true := by
        cases b with
        | true => rfl
        | false => simp only [readsNo_append, readsNo] at g4; omega
      subst hb
      simp only [restarts_append, restarts, runs_append, runs, reads_append, reads, readsNo_append,
        readsNo, calls_append, calls] at g2 g3 g4 g5
      have hd : isDone p true s.now s = true := by simp [isDone]
      rw [hd] at e5
      have hz := g5.2 (by omega)
      by_cases hf : s.next - finished = 0
      · rw [if_pos (by simp [hf])] at e5
        subst e5
        refine ⟨g1, ?_, ?_, ?_, ?_⟩
        · simp only [leave, restarts_append, restarts]; omega
        · simp only [leave, runs_append, runs, reads_append, reads]; omega
        · simp only [leave, readsNo_append, readsNo]; omega
        · simp only [leave, calls_append, calls]; omega
      · rw [if_neg (by simp [hf])] at e5
        subst e5
        refine ⟨g1, ?_, ?_, ?_, ?_⟩
        · simp only [leave, restarts_append]; omega
        · simp only [leave, runs_append, reads_append]; omega
        · simp only [leave, readsNo_append]; omega
        · simp only [leave, calls_append]; omega
    | @overflow l1 l2 k b k1 k2 k3 =>
      obtain ⟨g1, g2, g3, g4, g5⟩ := ih hs
      exact ⟨g1, g2, g3, g4, g5⟩
    | @restart l1 l2 k k1 k2 =>
      simp only [startIteration, allStarts] at hs; omega
    | @allDone l1 l2 k1 k2 =>
      obtain ⟨g1, g2, g3, g4, g5⟩ := ih (by simpa [allStarts] using hs)
      rw [k2] at g2 g3 g4 g5
      simp only [restarts_append, restarts, runs_append, runs, reads_append, reads, readsNo_append,
        readsNo, calls_append, calls] at g2 g3 g4 g5
      refine ⟨g1, ?_, ?_, ?_, ?_⟩
      · simp only [restarts_append]; omega
      · simp only [runs_append, reads_append]; omega
      · simp only [readsNo_append]; omega
      · simp only [calls_append, reports]
        exact ⟨fun h => by have := g5.1 h; omega, fun h => by have := g5.2 h; omega⟩
    | run k1 k2 k3 => rw [ho] at k3; simp at k3
    | tick gap k1 k2 k3 k4 k5 k6 =>
      simp only [startIteration, allStarts] at hs; omega
    | tickOverflow gap k1 k2 k3 k5 k6 =>
      obtain ⟨g1, g2, g3, g4, g5⟩ := ih hs
      exact ⟨g1, g2, g3, g4, g5⟩

/-- C83, the part that holds.  If at the moment of cancellation some iterations of an open-loop
action are running, none is in the middle of ending and the end has not been reported, and if no
further iteration is started, then the end is reported at most once, and has been reported when
nothing is under way. -/
theorem C83_in_flight_partial (a : Action) (period n : Int) (h : OpenLoop a period n) (now : Int)
    (w b : Bool) (m j : Nat) (s s' : State) (he : Executes a now w b m s) (hc : s.canceled = true)
    (hrun : ∀ t ∈ s.threads, ∃ k, t = .running k) (hne : s.threads ≠ []) (hrep : reports s.log = 0)
    (hr : Run (params a now w) s j s') (hs : allStarts s'.log = allStarts s.log) :
    reports s'.log ≤ 1 ∧ (s'.threads = [] → reports s'.log = 1) := by
  have h1 := open_executes h he
  have hz : ∀ l : List Thread, (∀ t ∈ l, ∃ k, t = .running k) →
      runs l = l.length ∧ reads l = 0 ∧ restarts l = 0 ∧ readsNo l = 0 ∧ calls l = 0 := by
    intro l
    induction l with
    | nil => intro _; exact ⟨rfl, rfl, rfl, rfl, rfl⟩
    | cons t r ih =>
      intro hl
      obtain ⟨k, rfl⟩ := hl t List.mem_cons_self
      have := ih (fun t ht => hl t (List.mem_cons_of_mem _ ht))
      simp only [runs, reads, restarts, readsNo, calls, List.length_cons]
      omega
  obtain ⟨z1, z2, z3, z4, z5⟩ := hz _ hrun
  have hlen : 0 < s.threads.length := List.length_pos_iff.mpr hne
  have hp := h1.pend
  have hd : Draining (params a now w) s :=
    ⟨hc, z3, hp, z4, fun h => by omega, fun _ => by omega⟩
  obtain ⟨g1, g2, g3, g4, g5⟩ := draining_run (open_params h now w).1 hd hr hs
  constructor
  · rcases Decidable.em (s'.next = s'.finished) with h | h
    · have := g5.1 h; omega
    · have := g5.2 h; omega
  · intro ht
    rw [ht] at g3 g5
    simp only [runs, reads, calls] at g3 g5
    have := g5.1 (by omega)
    omega

example : ∃ m s, Executes (tickAction "constant".toList) 3 false false m s ∧ s.canceled = true ∧
    s.threads = [.running 0, .running 1] ∧ reports s.log = 0 := by
  obtain ⟨m, s, h1, h2⟩ := shows_executes (a := tickAction "constant".toList) (now := 3) (w := false)
    (b := false) (cmds := [.time 14, .tick 10, .tick 10, .cancel])
    (q := fun s => decide (s.canceled = true ∧ s.threads = [.running 0, .running 1] ∧
      reports s.log = 0)) (by decide +kernel)
  exact ⟨m, s, h1, of_decide_eq_true h2⟩

theorem stopped_run {p : Params} {s0 s : State} {n : Nat} (ho : p.openLoop = true)
    (h0 : s0.threads = []) (h : Run p s0 n s) (hs : allStarts s.log = allStarts s0.log) :
    s.threads = [] ∧ s.log = s0.log := by
  induction h with
  | start => exact ⟨h0, rfl⟩
  | @idle n s s' hr hi ih =>
    obtain ⟨f1, f2, f3, f4, f5, f6, f7⟩ := idle_frame hi
    rw [f2] at hs
    rw [f5, f2]; exact ih hs
  | @work n s s' hr hw ih =>
    have hmono := starts_mono hr
    have key : allStarts s.log = allStarts s0.log → s.threads = [] := fun h => (ih h).1
    cases hw with
    | issue k1 k2 => rw [ho] at k2; simp at k2
    | complete k1 k2 => rw [key (by simpa [allStarts] using hs)] at k2; simp at k2
    | @locked l1 l2 k b next finished d k1 k2 k3 =>
      rw [key (by cases d <;> exact hs)] at k2; simp at k2
    | overflow k1 k2 k3 => exact ih hs
    | restart k1 k2 => simp only [startIteration, allStarts] at hs; omega
    | allDone k1 k2 => rw [key (by simpa [allStarts] using hs)] at k2; simp at k2
    | run k1 k2 k3 => rw [ho] at k3; simp at k3
    | tick gap k1 k2 k3 k4 k5 k6 => simp only [startIteration, allStarts] at hs; omega
    | tickOverflow gap k1 k2 k3 k5 k6 => exact ih hs

/-- C83 is false: if an open-loop action is cancelled between two iterations, when none is running,
and the list starts no further one (it has left its loop), then the end is never reported. -/
theorem C83_cancelled_between : ∃ m s, Executes (tickAction "constant".toList) 3 false false m s ∧
    s.canceled = true ∧ inFlight s.log = 0 ∧ allStarts s.log = 1 ∧
    ∀ j s', Run (params (tickAction "constant".toList) 3 false) s j s' →
      allStarts s'.log = allStarts s.log → reports s'.log = 0 := by
  obtain ⟨m, s, h1, h2⟩ := shows_executes (a := tickAction "constant".toList) (now := 3) (w := false)
    (b := false) (cmds := [.time 4, .tick 10, .complete 0, .locked 0, .cancel])
    (q := fun s => decide (s.canceled = true ∧ s.threads = [] ∧ inFlight s.log = 0 ∧
      allStarts s.log = 1 ∧ reports s.log = 0)) (by decide +kernel)
  obtain ⟨g1, g2, g3, g4, g5⟩ := of_decide_eq_true h2
  refine ⟨m, s, h1, g1, g3, g4, ?_⟩
  intro j s' hr hs
  rw [(stopped_run rfl g2 hr hs).2]
  exact g5

/-- C83 is false in another way: if the traffic is cancelled while the list is still starting
iterations, the end can be reported twice. -/
theorem C83_reported_twice : ∃ m s, Executes (tickAction "constant".toList) 3 false false m s ∧
    reports s.log = 2 := by
  obtain ⟨m, s, h1, h2⟩ := shows_executes (a := tickAction "constant".toList) (now := 3) (w := false)
    (b := false) (cmds := [.time 14, .tick 10, .cancel, .complete 0, .locked 0, .allDone 0,
      .tick 10, .complete 0, .locked 0, .allDone 0])
    (q := fun s => decide (reports s.log = 2)) (by decide +kernel)
  exact ⟨m, s, h1, of_decide_eq_true h2⟩

/-! ### C84: unusual counts -/

/-- C84, the part that holds: with a positive iteration count and positive parallelism the action is
initiated without aborting, and reports its end exactly when nothing of it is under way. -/
theorem C84_sensible_partial (a : Action) (par n : Int) (h : ClosedLoop a par)
    (hn : limitOf a = some n) (now : Int) (w b : Bool) :
    (∀ spread, ∃ s, initiate a now w b spread = .ok s) ∧
    ∀ m s, Executes a now w b m s → (m : Int) ≤ 3 * n + 1 ∧
      (reports s.log = 1 ∨ ∃ s', Work (params a now w) s s') := by
  refine ⟨closed_initiate h now w b, ?_⟩
  intro m s he
  obtain ⟨h1, h2⟩ := C33_ends a par n h hn now w b m s he
  refine ⟨h1, ?_⟩
  rcases Classical.em (Quiet (params a now w) s) with hq | hq
  · exact .inl ((C35_once a par h now w b m s he).2.1.2 hq)
  · exact .inr (h2 hq)

/-- With no copies to start, a closed loop does nothing at all. -/
theorem zero_copies_hang {a : Action} {now : Int} {w b : Bool}
    (ho : (params a now w).openLoop = false) (ha : (params a now w).activity = false)
    (hc : (params a now w).copies = 0) :
    (∀ spread, ∃ s, initiate a now w b spread = .ok s) ∧
    ∀ m s, Executes a now w b m s → s.log = [] ∧ ∀ s', ¬ Work (params a now w) s s' := by
  have hstep : ∀ {s s'}, s.threads = [] → s.issued = 0 → ¬ Work (params a now w) s s' := by
    intro s s' h1 h2 hw
    cases hw with
    | issue k1 k2 k3 => rw [hc, h2] at k3; omega
    | complete k1 k2 => rw [h1] at k2; simp at k2
    | locked k1 k2 => rw [h1] at k2; simp at k2
    | overflow k1 k2 => rw [h1] at k2; simp at k2
    | restart k1 k2 => rw [h1] at k2; simp at k2
    | allDone k1 k2 => rw [h1] at k2; simp at k2
    | run k1 k2 => rw [ha] at k2; simp at k2
    | tick gap k1 k2 => rw [ho] at k2; simp at k2
    | tickOverflow gap k1 k2 => rw [ho] at k2; simp at k2
  constructor
  · intro sp
    unfold initiate begin
    simp only [ho, hc, Bool.false_eq_true, if_false]
    exact ⟨_, if_neg (by omega)⟩
  · rintro m s ⟨sp, s0, hi, hr⟩
    have h0 : s0.threads = [] ∧ s0.issued = 0 ∧ s0.log = [] := by
      unfold initiate begin at hi
      simp only [ho, hc, Bool.false_eq_true, if_false] at hi
      rw [if_neg (by omega)] at hi
      injection hi with hi
      subst hi
      exact ⟨rfl, rfl, rfl⟩
    have key : s.threads = [] ∧ s.issued = 0 ∧ s.log = [] := by
      induction hr with
      | start => exact h0
      | work _ hw ih => exact absurd hw (hstep ih.1 ih.2.1)
      | idle _ hx ih =>
        obtain ⟨f1, f2, f3, f4, f5, f6, f7⟩ := idle_frame hx
        rw [f5, f6, f2]; exact ih
    exact ⟨key.2.2, fun s' => hstep key.1 key.2.1⟩

/-- An RPC action with the given limits. -/
def countAction (count : Option Int) (par : Int) : Action :=
  { name := "count".toList, kind := .rpc "query".toList
    iterations := some { maxIterationCount := count, maxParallelIterations := par } }

/-- C84 is false: with `max_iteration_count: 0`, with `max_parallel_iterations: 0`, or with
`max_parallel_iterations: 4294967296` and no count, the action is initiated, but nothing ever
happens, and its end is never reported. -/
theorem C84_hang (count : Option Int) (par : Int)
    (hx : (count = some 0 ∧ 1 ≤ par) ∨ (par = 0 ∧ ∀ n, count = some n → 1 ≤ n) ∨
      (par = 2 ^ 32 ∧ count = none)) (now : Int) (w b : Bool) :
    (∀ spread, ∃ s, initiate (countAction count par) now w b spread = .ok s) ∧
    ∀ m s, Executes (countAction count par) now w b m s →
      s.log = [] ∧ ∀ s', ¬ Work (params (countAction count par) now w) s s' := by
  refine zero_copies_hang rfl rfl ?_
  have hc : (params (countAction count par) now w).copies =
      narrow (min par (count.getD (2 ^ 63 - 1))) := rfl
  rw [hc]
  rcases hx with ⟨rfl, h⟩ | ⟨rfl, h⟩ | ⟨rfl, rfl⟩
  · simp only [Option.getD]
    rw [Int.min_eq_right (by omega)]; decide
  · cases count with
    | none => decide
    | some n =>
      have := h n rfl
      simp only [Option.getD]
      rw [Int.min_eq_left (by omega)]; decide
  · decide

/-- C84 is false: a negative count or parallelism (in the range of `int`) aborts the process. -/
theorem C84_abort (count : Option Int) (par : Int) (h64 : - 2 ^ 31 ≤ min par (count.getD (2 ^ 63 - 1)))
    (hneg : min par (count.getD (2 ^ 63 - 1)) < 0) (now : Int) (w b : Bool) (spread : Int) :
    initiate (countAction count par) now w b spread = .crash := by
  have hc : (params (countAction count par) now w).copies =
      narrow (min par (count.getD (2 ^ 63 - 1))) := rfl
  rw [narrow_id (by unfold InI32; omega)] at hc
  have ho : (params (countAction count par) now w).openLoop = false := rfl
  unfold initiate begin
  simp only [ho, Bool.false_eq_true, if_false]
  rw [if_pos (by rw [hc]; exact hneg)]

example : (some (0 : Int) = some 0 ∧ (1 : Int) ≤ 1) ∧
    min (-1 : Int) ((some (5 : Int)).getD (2 ^ 63 - 1)) < 0 := by decide

/-! ### C85: long runs -/

/-- C85, the part that holds: no counter overflows while fewer than 2^31 - 1 - par iterations have
been started. -/
theorem C85_short_partial (a : Action) (par : Int) (h : ClosedLoop a par) (now : Int) (w b : Bool)
    (m : Nat) (s : State) (he : Executes a now w b m s)
    (hshort : (allStarts s.log : Int) + par < 2 ^ 31 - 1) : s.overflow = false := by
  have hp := closed_params h now w
  obtain ⟨g1, g2⟩ := closed_executes h he
  cases hu : s.overflow with
  | false => rfl
  | true =>
    exfalso
    obtain ⟨sp, s0, hi, hr⟩ := he
    have key : ∀ {m s}, Run (params a now w) s0 m s → s.overflow = true → 2 ^ 31 - 1 ≤ s.next := by
      intro m s hr
      induction hr with
      | start => rw [(begin_log hi).2.2.2.2.1]; simp
      | idle _ hx ih =>
        obtain ⟨f1, f2, f3, f4, f5, f6, f7⟩ := idle_frame hx
        rw [f1, f4]; exact ih
      | @work n s s' hr hw ih =>
        have hold := work_overflow hw
        have hcl := closed_run hp.openLoop hp.activity (closed_begin hp.openLoop hp.le hi) hr
        cases hw with
        | @locked l1 l2 k b next finished d k1 k2 k3 =>
          intro hx
          have : s.overflow = true := by cases d <;> exact hx
          rw [hold] at this; simp at this
        | @overflow l1 l2 k b k1 k2 k3 =>
          intro _
          show 2 ^ 31 - 1 ≤ s.next
          have hno := finishLocked_none k3
          have h3 := hcl.pend
          rw [k2] at h3
          simp only [runs_append, reads_append, runs, reads] at h3
          have := hcl.issued
          have := hcl.book.nonneg
          unfold InI32 at hno
          split at hno <;> omega
        | tickOverflow gap k1 k2 => rw [hp.openLoop] at k2; simp at k2
        | issue => intro hx; exact absurd (show s.overflow = true from hx) (by rw [hold]; simp)
        | complete => intro hx; exact absurd (show s.overflow = true from hx) (by rw [hold]; simp)
        | restart => intro hx; exact absurd (show s.overflow = true from hx) (by rw [hold]; simp)
        | allDone => intro hx; exact absurd (show s.overflow = true from hx) (by rw [hold]; simp)
        | run => intro hx; exact absurd (show s.overflow = true from hx) (by rw [hold]; simp)
        | tick => intro hx; exact absurd (show s.overflow = true from hx) (by rw [hold]; simp)
    have h1 := key hr hu
    have h2 := g1.total
    have h3 := g2.pend
    have h4 := g1.pend
    have h5 := hp.copies
    omega

/-- C85 is false: an action without a limit on its iterations can run so long that its counter, an
`int`, overflows, which is undefined behaviour. -/
theorem C85_overflow : ∃ m s, Executes (countAction none 1) 0 false false m s ∧ s.overflow = true := by
  have hp : params (countAction none 1) 0 false =
      { limit := 2 ^ 63 - 1, timeLimit := .future, copies := 1, openLoop := false, periodNs := 0
        exponential := false, activity := false, listWarmup := false, warmupIterations := 0 } := by
    decide
  obtain ⟨p, hpe⟩ : ∃ p, p = params (countAction none 1) 0 false := ⟨_, rfl⟩
  rw [hp] at hpe
  obtain ⟨s0, hs0⟩ := closed_initiate (a := countAction none 1) (par := 1)
    ⟨by simp [countAction], rfl, rfl, by decide, by simp [limitOf, countAction], fun _ => by decide⟩
    0 false false 0
  have h0 : s0.next = 1 ∧ s0.finished = 0 ∧ s0.issued = 0 ∧ s0.threads = [] ∧ s0.overflow = false ∧
      s0.canceled = false := by
    unfold initiate begin at hs0
    rw [hp] at hs0
    simp at hs0
    subst hs0
    exact ⟨rfl, rfl, rfl, rfl, rfl, rfl⟩
  have key : ∀ k : Nat, (k : Int) + 2 ≤ 2 ^ 31 → ∃ m s, Run p s0 m s ∧ s.next = k + 1 ∧
      s.finished = k ∧ s.threads = [.running k] ∧ s.overflow = false ∧ s.canceled = false := by
    intro k
    induction k with
    | zero =>
      intro _
      refine ⟨1, _, .work .start (.issue h0.2.2.2.2.1 (by rw [hpe]) (by rw [hpe, h0.2.2.1]; decide)
        (fun _ => h0.2.2.2.1)), ?_⟩
      obtain ⟨a1, a2, a3, a4, a5, a6⟩ := h0
      simp [startIteration, a1, a2, a3, a4, a5, a6]
    | succ k ih =>
      intro hk
      obtain ⟨m, s, hr, a1, a2, a3, a4, a5⟩ := ih (by omega)
      refine ⟨m + 3, _, .work (.work (.work hr (.complete (l1 := []) (l2 := []) a4 a3))
        (.locked (l1 := []) (l2 := []) (k := k) (b := false) (next := k + 2) (finished := k + 1)
          (d := .restart (k + 1)) a4 (by rw [a5]; try rfl) ?_))
        (.restart (l1 := []) (l2 := []) (k := k + 1) a4 rfl), ?_⟩
      · have hd : ∀ (st : State) (now : Int), st.next = k + 1 → isDone p false now st = false := by
          intro st now hst
          simp only [isDone, hst, hpe, Bool.false_or, Bool.not_false, if_true, Time.lt]
          exact if_neg (by omega)
        simp only [finishLocked]
        rw [hd _ _ (by exact a1)]
        simp only [a1, a2, hpe, Bool.not_false, Bool.and_self, if_true, Bool.false_and,
          Bool.false_eq_true, if_false]
        rw [if_neg (by unfold InI32; omega)]
        congr 2
      · refine ⟨?_, ?_, ?_, a4, a5⟩
        · simp only [startIteration, leave]; omega
        · simp only [startIteration, leave]; omega
        · simp only [startIteration, leave, List.nil_append]
          congr 2
  obtain ⟨m, s, hr, a1, a2, a3, a4, a5⟩ := key (2 ^ 31 - 2) (by decide)
  have hk : (((2 ^ 31 - 2 : Nat)) : Int) = 2 ^ 31 - 2 := by decide
  rw [hk] at a1 a2
  have hd : ∀ (st : State) (now : Int), st.next = 2 ^ 31 - 1 → isDone p false now st = false := by
    intro st now hst
    simp only [isDone, hst, hpe, Bool.false_or, Bool.not_false, if_true, Time.lt]
    exact if_neg (by omega)
  obtain ⟨s', hr', hov⟩ : ∃ s', Run p s0 (m + 2) s' ∧ s'.overflow = true := by
    refine ⟨_, .work (.work hr (.complete (l1 := []) (l2 := []) a4 a3))
      (.overflow (l1 := []) (l2 := []) (b := false) a4 (by rw [a5]; try rfl) ?_), rfl⟩
    simp only [finishLocked]
    rw [hd _ _ (by show s.next = _; omega)]
    simp only [a1, a2, hpe, Bool.not_false, Bool.and_self, if_true]
    rw [if_pos (by unfold InI32; omega)]
  rw [show p = params (countAction none 1) 0 false by rw [hpe, hp]] at hr'
  exact ⟨m + 2, s', ⟨0, s0, hs0, hr'⟩, hov⟩

example : ClosedLoop (countAction none 1) 1 ∧ ∃ m s, Executes (countAction none 1) 0 false false m s ∧
    (allStarts s.log : Int) + 1 < 2 ^ 31 - 1 ∧ allStarts s.log = 1 := by
  refine ⟨⟨by simp [countAction], rfl, rfl, by decide, by simp [limitOf, countAction],
    fun _ => by decide⟩, ?_⟩
  obtain ⟨m, s, h1, h2⟩ := shows_executes (a := countAction none 1) (now := 0) (w := false)
    (b := false) (cmds := [.issue])
    (q := fun s => decide ((allStarts s.log : Int) + 1 < 2 ^ 31 - 1 ∧ allStarts s.log = 1))
    (by decide +kernel)
  exact ⟨m, s, h1, of_decide_eq_true h2⟩

/-! ### C299: long runs of open loops -/

/-- C299, the part that holds: no counter of an open loop overflows while fewer than 2^31 - 1
iterations have been started. -/
theorem C299_short_partial (a : Action) {period : Int}
    (hp : (a.iterations.getD {}).openLoopIntervalNs = some period)
    (hn : ∀ n, limitOf a = some n → 1 ≤ n) (now : Int) (w b : Bool) (m : Nat) (s : State)
    (he : Executes a now w b m s) (hshort : (allStarts s.log : Int) < 2 ^ 31 - 1) :
    s.overflow = false := by
  obtain ⟨sp, s0, hi, hr⟩ := he
  have ho : (params a now w).openLoop = true := by
    show (a.iterations.getD {}).openLoopIntervalNs.isSome = true
    rw [hp]; rfl
  have hl : 0 < (params a now w).limit := by
    rw [limit_eq]
    cases hx : limitOf a with
    | none => decide
    | some n => have := hn n hx; simp only [Option.getD]; omega
  have h0 := open_begin ho hl hi
  cases hu : s.overflow with
  | false => rfl
  | true =>
    exfalso
    have key : ∀ {m s}, Run (params a now w) s0 m s → s.overflow = true → 2 ^ 31 - 1 ≤ s.next := by
      intro m s hr
      induction hr with
      | start => rw [(begin_log hi).2.2.2.2.1]; simp
      | idle _ hx ih =>
        obtain ⟨f1, f2, f3, f4, f5, f6, f7⟩ := idle_frame hx
        rw [f1, f4]; exact ih
      | @work n s s' hr hw ih =>
        have hold := work_overflow hw
        have hop := open_run ho h0 hr
        cases hw with
        | @locked l1 l2 k b next finished d k1 k2 k3 =>
          intro hx
          have : s.overflow = true := by cases d <;> exact hx
          rw [hold] at this; simp at this
        | @overflow l1 l2 k b k1 k2 k3 =>
          intro _
          show 2 ^ 31 - 1 ≤ s.next
          have hno := finishLocked_none k3
          have h3 := hop.pend
          rw [k2] at h3
          simp only [runs_append, reads_append, runs, reads] at h3
          have := hop.book.nonneg
          rw [ho] at hno
          simp only [Bool.not_true, Bool.and_false, Bool.false_eq_true, if_false] at hno
          unfold InI32 at hno
          omega
        | @tickOverflow k gap k1 k2 k3 k4 k5 =>
          intro _
          show 2 ^ 31 - 1 ≤ s.next
          have := hop.total
          unfold InI32 at k5
          omega
        | issue => intro hx; exact absurd (show s.overflow = true from hx) (by rw [hold]; simp)
        | complete => intro hx; exact absurd (show s.overflow = true from hx) (by rw [hold]; simp)
        | restart => intro hx; exact absurd (show s.overflow = true from hx) (by rw [hold]; simp)
        | allDone => intro hx; exact absurd (show s.overflow = true from hx) (by rw [hold]; simp)
        | run => intro hx; exact absurd (show s.overflow = true from hx) (by rw [hold]; simp)
        | tick => intro hx; exact absurd (show s.overflow = true from hx) (by rw [hold]; simp)
    have h1 := key hr hu
    have h2 := (open_run ho h0 hr).total
    omega

/-- An RPC every nanosecond, without a limit. -/
def everyNs : Action :=
  { name := "every".toList, kind := .rpc "query".toList
    iterations := some { openLoopIntervalNs := some 1 } }

/-- The first `k` iterations of `everyNs`, all of them started late. -/
theorem everyNs_ticks {p : Params} (ho : p.openLoop = true) (hl : p.limit = 2 ^ 63 - 1)
    (ht : p.timeLimit = .future) (he : p.exponential = false) (hn : p.periodNs = 1) {s0 : State}
    (h1 : s0.next = 0) (h2 : s0.nextTime = .at 0) (h3 : s0.now = 0) (h4 : s0.overflow = false)
    (k : Nat) (hk : (k : Int) ≤ 2 ^ 31 - 1) : ∃ m s, Run p s0 m s ∧ s.next = k ∧
      s.nextTime = .at k ∧ s.now = 2 ^ 32 ∧ s.overflow = false := by
  induction k with
  | zero => exact ⟨0, _, .idle .start (.time (2 ^ 32) (by rw [h3]; decide)), h1, h2, rfl, h4⟩
  | succ k ih =>
    obtain ⟨m, s, hr, a1, a2, a3, a4⟩ := ih (by omega)
    have hk2 : ((k : Int) + 1) ≤ 2 ^ 31 - 1 := by omega
    have hlt : Time.lt s.nextTime (.at s.now) = true := by
      rw [a2, a3]
      simp only [Time.lt, decide_eq_true_eq]
      omega
    have htick : openTick p 1 s = (.at (k + 1), some (k : Int)) := by
      unfold openTick
      rw [a2, a1, ht, hl, if_neg (by omega)]
      rfl
    refine ⟨m + 1, _, .work hr (.tick (k := k) 1 a4 ho hlt (by rw [he, hn]; rfl) (by rw [htick])
      (by rw [a1]; unfold InI32; omega)), ?_, ?_, a3, a4⟩
    · show s.next + 1 = _
      omega
    · show (openTick p 1 s).1 = _
      rw [htick]
      rfl

/-- C299 is false: an open loop without a limit on its iterations can run so long that its counter, an
`int`, overflows, which is undefined behaviour. -/
theorem C299_overflow : ∃ m s, Executes everyNs 0 false false m s ∧ s.overflow = true := by
  obtain ⟨s0, hs0, h1, h2, h3, h4⟩ : ∃ s0, initiate everyNs 0 false false 0 = .ok s0 ∧ s0.next = 0 ∧
      s0.nextTime = .at 0 ∧ s0.now = 0 ∧ s0.overflow = false := ⟨_, rfl, rfl, rfl, rfl, rfl⟩
  have ho : (params everyNs 0 false).openLoop = true := rfl
  have hl : (params everyNs 0 false).limit = 2 ^ 63 - 1 := rfl
  have ht : (params everyNs 0 false).timeLimit = .future := rfl
  have he : (params everyNs 0 false).exponential = false := by decide
  obtain ⟨m, s, hr, a1, a2, a3, a4⟩ := everyNs_ticks ho hl ht he rfl h1 h2 h3 h4 (2 ^ 31 - 1)
    (by decide)
  have hk : (((2 ^ 31 - 1 : Nat)) : Int) = 2 ^ 31 - 1 := by decide
  rw [hk] at a1 a2
  refine ⟨m + 1, _, ⟨0, s0, hs0, .work hr (.tickOverflow (k := 2 ^ 31 - 1) 1 a4 ho ?_ ?_ ?_)⟩, rfl⟩
  · rw [a2, a3]; decide
  · unfold openTick
    simp only
    rw [a1, hl, if_neg (by decide)]
  · rw [a1]; unfold InI32; decide

/-- `everyNs` meets the conditions of the part that holds, and can run. -/
example : ∃ m s, Executes everyNs 0 false false m s ∧ s.overflow = false ∧ s.next = 3 := by
  obtain ⟨s0, hs0, h1, h2, h3, h4⟩ : ∃ s0, initiate everyNs 0 false false 0 = .ok s0 ∧ s0.next = 0 ∧
      s0.nextTime = .at 0 ∧ s0.now = 0 ∧ s0.overflow = false := ⟨_, rfl, rfl, rfl, rfl, rfl⟩
  obtain ⟨m, s, hr, a1, -, -, a4⟩ := everyNs_ticks (p := params everyNs 0 false) rfl rfl rfl
    (by decide) rfl h1 h2 h3 h4 3 (by decide)
  exact ⟨m, s, ⟨0, s0, hs0, hr⟩, a4, a1⟩

end Distbench
