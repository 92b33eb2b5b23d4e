import Verif.Lemmas.ThreadpoolSimple

/-! Properties of the thread pools. -/

namespace Distbench.Threadpool
open Spec

/-! ### Lemmas -/

theorem live_of_get {l : List Th} {i : Nat} {t : Th} (h : l[i]? = some t) (ht : Live t) : 0 < number Live l :=
  (number_pos Live).2 ⟨i, t, h, ht⟩

theorem elastic_max_step {s s' : Elastic} {op : Op} (h : s.step op = some s') : s'.max = s.max := by
  cases op <;> simp only [Elastic.step] at h
  all_goals (repeat' split at h)
  all_goals first
    | (simp only [Option.some.injEq] at h; subst h; rfl)
    | (simp only [Option.some.injEq] at h
       subst h
       simp only [Elastic.addTask, Elastic.launch, Elastic.finish, Elastic.wait, Elastic.wake, Elastic.timeout]
       (repeat' split) <;> rfl)
    | cases h

theorem elastic_max {ops : List Op} {s s' : Elastic} (h : s.run ops = some s') : s'.max = s.max := by
  induction ops generalizing s with
  | nil => simp only [Elastic.run] at h; cases h; rfl
  | cons op ops ih =>
    simp only [Elastic.run] at h
    split at h
    · rename_i s1 h1
      rw [ih h, elastic_max_step h1]
    · cases h

theorem beingRun_pos {l : List Th} (h : beingRun l ≠ []) : ∃ (i : Nat) (task : Nat), l[i]? = some (.running task) := by
  induction l with
  | nil => exact absurd rfl h
  | cons t l ih =>
    by_cases ht : ∃ task, t = .running task
    · obtain ⟨task, rfl⟩ := ht
      exact ⟨0, task, rfl⟩
    · have : beingRun (t :: l) = beingRun l := by
        cases t <;> first | rfl | exact absurd ⟨_, rfl⟩ ht
      rw [this] at h
      obtain ⟨i, task, hi⟩ := ih h
      exact ⟨i + 1, task, by simpa using hi⟩

/-! ### C47: elastic pools -/

/-- C47.  At any time every task added to an elastic pool (as often as it was added) has either
completed, or is being run by one thread, or is in the queue; tasks are handed to threads in the order
they were added. -/
theorem C47_elastic_once {size : Nat} {ops : List Op} {s : Elastic}
    (h : (Elastic.new size).run ops = some s) :
    s.added.Perm (s.finished ++ beingRun s.threads ++ s.queue) ∧ s.added = s.begun ++ s.queue := by
  have inv := einv_run (einv_new size) h
  refine ⟨?_, inv.order⟩
  rw [inv.order]
  exact inv.once.append_right _

/-- C47.  When the destructor returns, every added task has completed exactly once, all threads have
ended and nothing more happens. -/
theorem C47_elastic_destroyed {size : Nat} {ops : List Op} {s s' : Elastic}
    (h : (Elastic.new size).run ops = some s) (hd : s.step .destroyed = some s') :
    s'.finished.Perm s'.added ∧ (∀ t ∈ s'.threads, t = .exited) ∧ ∀ op, s'.step op = none := by
  have inv := einv_run (einv_new size) h
  simp only [Elastic.step] at hd
  split at hd
  · rename_i hg
    cases hd
    have hl : number Live s.threads = 0 := by rw [← inv.active]; exact hg.2.2
    have hno : ∀ (i : Nat) (t : Th), s.threads[i]? = some t → t = .exited := by
      intro i t ht
      have := number_zero Live hl ht
      unfold Live at this
      simpa using this
    have hq : s.queue = [] := by
      cases hq : s.queue with
      | nil => rfl
      | cons a l => have := inv.taker (by rw [hq]; simp); omega
    refine ⟨?_, ?_, ?_⟩
    · have h1 := inv.once
      rw [beingRun_none hl, List.append_nil] at h1
      dsimp only
      rw [inv.order, hq, List.append_nil]
      exact h1.symm
    · intro t ht
      obtain ⟨i, hi, rfl⟩ := List.getElem_of_mem ht
      exact hno i _ (List.getElem?_eq_getElem hi)
    · intro op
      cases op <;> simp only [Elastic.step]
      all_goals first
        | (simp [hg.1]; done)
        | (split <;> first | (rename_i hk; exact absurd (hno _ _ hk) (by simp)) | rfl)
  · cases hd

/-- C47.  As long as some added task has not completed, or the pool is being destroyed and a thread
has not ended, some thread can get on with its work; so the tasks do complete and the destructor can
return. -/
theorem C47_elastic_never_stuck {size : Nat} {ops : List Op} {s : Elastic}
    (h : (Elastic.new size).run ops = some s)
    (hleft : s.finished.length < s.added.length ∨ (s.shutdown = true ∧ ∃ t ∈ s.threads, Live t)) :
    ∃ op, Works op ∧ (s.step op).isSome := by
  have inv := einv_run (einv_new size) h
  have hthread : ∀ (i : Nat) (t : Th), s.threads[i]? = some t → Live t → (s.queue ≠ [] ∨ s.shutdown = true) →
      ∃ op, Works op ∧ (s.step op).isSome := by
    intro i t ht hl hc
    cases t with
    | running task => exact ⟨.finish i, trivial, by simp [Elastic.step, ht]⟩
    | between did => exact ⟨.wait i, trivial, by simp [Elastic.step, ht]⟩
    | waiting timed =>
      refine ⟨.wake i, trivial, ?_⟩
      simp only [Elastic.step, ht]
      rw [if_pos hc]
      rfl
    | exited => exact absurd rfl hl
  rcases hleft with hlt | ⟨hsd, t, hm, hl⟩
  · by_cases hr : beingRun s.threads = []
    · have hq : s.queue ≠ [] := by
        intro hq
        have h1 := inv.once.length_eq
        rw [hr, List.append_nil] at h1
        rw [inv.order, hq, List.append_nil] at hlt
        omega
      have := inv.taker hq
      rw [inv.active, number_pos] at this
      obtain ⟨i, t, ht, hl⟩ := this
      exact hthread i t ht hl (Or.inl hq)
    · obtain ⟨i, task, hi⟩ := beingRun_pos hr
      exact ⟨.finish i, trivial, by simp [Elastic.step, hi]⟩
  · obtain ⟨i, hi, rfl⟩ := List.getElem_of_mem hm
    exact hthread i _ (List.getElem?_eq_getElem hi) hl (Or.inr hsd)

theorem beingRun_length_set {l : List Th} {i : Nat} {a : Th} (b : Th) (h : l[i]? = some a) :
    (beingRun (l.set i b)).length + (beingRun [a]).length = (beingRun l).length + (beingRun [b]).length := by
  have e1 := (beingRun_perm (perm_get h)).length_eq
  have e2 := (beingRun_perm (perm_set b h)).length_eq
  rw [← List.singleton_append, beingRun_append, List.length_append] at e1 e2
  omega

theorem workLeft_set {l : List Th} {i : Nat} {a : Th} (b : Th) (q : List Nat) (h : l[i]? = some a) :
    workLeft q (l.set i b) + 2 * (beingRun [a]).length + (if Busy a then 1 else 0) + (if Live a then 1 else 0) =
    workLeft q l + 2 * (beingRun [b]).length + (if Busy b then 1 else 0) + (if Live b then 1 else 0) := by
  have h1 := beingRun_length_set b h
  have h2 := number_set Busy b h
  have h3 := number_set Live b h
  unfold workLeft
  omega

/-- C47.  Every such step leaves less work, so without new tasks there are finitely many. -/
theorem C47_elastic_decreases {s s' : Elastic} {op : Op} (hop : Works op) (h : s.step op = some s') :
    workLeft s'.queue s'.threads < workLeft s.queue s.threads := by
  have hlaunch : ∀ s : Elastic, s.queue ≠ [] → 
      workLeft s.launch.queue s.launch.threads < workLeft s.queue s.threads := by
    intro s hne
    unfold Elastic.launch
    cases hq : s.queue with
    | nil => exact absurd hq hne
    | cons task rest =>
      simp only [workLeft, beingRun_append, number_append, beingRun, number_cons, number_nil, List.length_append,
        List.length_cons, List.length_nil]
      rw [if_neg (c := Busy (.running task)) (by rintro ⟨_, h⟩; cases h), if_pos (by unfold Live; simp)]
      omega
  cases op with
  | finish i =>
    simp only [Elastic.step] at h
    split at h
    · rename_i task ht
      cases h
      have := workLeft_set (.between true) s.queue ht
      simp [beingRun, Busy, Live] at this
      simp only [Elastic.finish]
      omega
    · cases h
  | wait i =>
    simp only [Elastic.step] at h
    split at h
    · rename_i did ht
      cases h
      have := workLeft_set (.waiting (decide (s.idle + 1 > s.max))) s.queue ht
      simp [beingRun, Busy, Live] at this
      simp only [Elastic.wait]
      simp
      omega
    · cases h
  | wake i =>
    simp only [Elastic.step] at h
    split at h
    · rename_i timed ht
      split at h
      · cases h
        unfold Elastic.wake
        cases hq : s.queue with
        | nil =>
          have := workLeft_set .exited [] ht
          simp [beingRun, Busy, Live] at this
          simp
          omega
        | cons task rest =>
          have h1 := workLeft_set (.running task) rest ht
          simp [beingRun, Busy, Live] at h1
          have h2 : workLeft (task :: rest) s.threads = workLeft rest s.threads + 4 := by
            unfold workLeft; simp only [List.length_cons]; omega
          dsimp only
          split
          · rename_i hg
            refine Nat.lt_trans (hlaunch _ (by exact hg.2)) ?_
            dsimp only
            omega
          · dsimp only; omega
      · cases h
    · cases h
  | _ => exact hop.elim

/-- A run of an elastic pool of three threads, with all that happens to a pool. -/
def sampleOps : List Op :=
  [.add 1, .add 2, .add 1, .finish 1, .wait 1, .add 7, .wake 1, .addFrom 0 9, .finish 0, .finish 2, .finish 3,
   .wait 3, .wait 2, .finish 1, .wait 0, .wait 1, .timeout 1, .shutdown, .wake 0, .wake 2, .wake 3]

example : ∃ s, (Elastic.new 3).run (sampleOps.take 12) = some s ∧ s.queue = [] ∧ s.finished = [2, 1, 1, 9] ∧
    s.launched = 4 ∧ beingRun s.threads = [7] := by
  refine ⟨_, rfl, ?_⟩
  decide +kernel

example : ∃ s, (Elastic.new 3).run (sampleOps ++ [.destroyed]) = some s ∧ s.destroyed = true ∧
    s.finished.length = 5 := by
  refine ⟨_, rfl, ?_⟩
  decide +kernel

/-! ### C47: simple pools -/

/-- C47 for simple pools, as `C47_elastic_once`. -/
theorem C47_simple_once {size : Nat} (hsize : 1 ≤ size) {ops : List Op} {s : Simple}
    (h : (Simple.new size).run ops = some s) :
    s.added.Perm (s.finished ++ beingRun s.threads ++ s.queue) ∧ s.added = s.begun ++ s.queue := by
  have inv := sinv_run (sinv_new hsize) h
  refine ⟨?_, inv.order⟩
  rw [inv.order]
  exact inv.once.append_right _

/-- C47 for simple pools, as `C47_elastic_destroyed`. -/
theorem C47_simple_destroyed {size : Nat} (hsize : 1 ≤ size) {ops : List Op} {s s' : Simple}
    (h : (Simple.new size).run ops = some s) (hd : s.step .destroyed = some s') :
    s'.finished.Perm s'.added ∧ (∀ t ∈ s'.threads, t = .exited) ∧ ∀ op, s'.step op = none := by
  have inv := sinv_run (sinv_new hsize) h
  simp only [Simple.step] at hd
  split at hd
  · rename_i hg
    cases hd
    have hl : number Live s.threads = 0 := by rw [← inv.active]; exact hg.2.2
    have hno : ∀ (i : Nat) (t : Th), s.threads[i]? = some t → t = .exited := by
      intro i t ht
      have := number_zero Live hl ht
      unfold Live at this
      simpa using this
    have hq : s.queue = [] := by
      cases hq : s.queue with
      | nil => rfl
      | cons a l => have := inv.taker (by rw [hq]; simp); omega
    refine ⟨?_, ?_, ?_⟩
    · have h1 := inv.once
      rw [beingRun_none hl, List.append_nil] at h1
      dsimp only
      rw [inv.order, hq, List.append_nil]
      exact h1.symm
    · intro t ht
      obtain ⟨i, hi, rfl⟩ := List.getElem_of_mem ht
      exact hno i _ (List.getElem?_eq_getElem hi)
    · intro op
      cases op <;> simp only [Simple.step]
      all_goals first
        | (simp [hg.1]; done)
        | (split <;> first | (rename_i hk; exact absurd (hno _ _ hk) (by simp)) | rfl)
  · cases hd

/-- C47 for simple pools, as `C47_elastic_never_stuck`. -/
theorem C47_simple_never_stuck {size : Nat} (hsize : 1 ≤ size) {ops : List Op} {s : Simple}
    (h : (Simple.new size).run ops = some s)
    (hleft : s.finished.length < s.added.length ∨ (s.shutdown = true ∧ ∃ t ∈ s.threads, Live t)) :
    ∃ op, Works op ∧ (s.step op).isSome := by
  have inv := sinv_run (sinv_new hsize) h
  have hthread : ∀ (i : Nat) (t : Th), s.threads[i]? = some t → Live t → (s.queue ≠ [] ∨ s.shutdown = true) →
      ∃ op, Works op ∧ (s.step op).isSome := by
    intro i t ht hl hc
    rcases inv.kinds i t ht with rfl | rfl | ⟨k, rfl⟩
    · exact absurd rfl hl
    · refine ⟨.wake i, trivial, ?_⟩
      simp only [Simple.step, ht]
      rw [if_pos hc]
      rfl
    · exact ⟨.finish i, trivial, by simp [Simple.step, ht]⟩
  rcases hleft with hlt | ⟨hsd, t, hm, hl⟩
  · by_cases hr : beingRun s.threads = []
    · have hq : s.queue ≠ [] := by
        intro hq
        have h1 := inv.once.length_eq
        rw [hr, List.append_nil] at h1
        rw [inv.order, hq, List.append_nil] at hlt
        omega
      have := inv.taker hq
      rw [inv.active, number_pos] at this
      obtain ⟨i, t, ht, hl⟩ := this
      exact hthread i t ht hl (Or.inl hq)
    · obtain ⟨i, task, hi⟩ := beingRun_pos hr
      exact ⟨.finish i, trivial, by simp [Simple.step, hi]⟩
  · obtain ⟨i, hi, rfl⟩ := List.getElem_of_mem hm
    exact hthread i _ (List.getElem?_eq_getElem hi) hl (Or.inr hsd)

/-- C47 for simple pools, as `C47_elastic_decreases`. -/
theorem C47_simple_decreases {s s' : Simple} {op : Op} (hop : Works op) (h : s.step op = some s') :
    workLeft s'.queue s'.threads < workLeft s.queue s.threads := by
  cases op with
  | finish i =>
    simp only [Simple.step] at h
    split at h
    · rename_i task ht
      cases h
      have := workLeft_set (.waiting false) s.queue ht
      simp [beingRun, Busy, Live] at this
      dsimp only
      omega
    · cases h
  | wait i => simp [Simple.step] at h
  | wake i =>
    simp only [Simple.step] at h
    split at h
    · rename_i timed ht
      split at h
      · cases h
        unfold Simple.wake
        cases hq : s.queue with
        | nil =>
          have := workLeft_set .exited [] ht
          simp [beingRun, Busy, Live] at this
          simp
          omega
        | cons task rest =>
          have h1 := workLeft_set (.running task) rest ht
          simp [beingRun, Busy, Live] at h1
          have h2 : workLeft (task :: rest) s.threads = workLeft rest s.threads + 4 := by
            unfold workLeft; simp only [List.length_cons]; omega
          dsimp only
          omega
      · cases h
    · cases h
  | _ => exact hop.elim

example : ∃ s, (Simple.new 2).run [.add 1, .add 2, .wake 1, .add 3, .addFrom 1 4, .wake 0, .shutdown, .finish 1, .wake 1,
    .finish 0, .wake 0, .finish 1, .addFrom 0 5, .wake 1, .finish 0, .wake 0, .finish 1, .wake 1, .destroyed] = some s ∧
    s.destroyed = true ∧ s.finished = [1, 2, 3, 4, 5] := by
  refine ⟨_, rfl, ?_⟩
  decide +kernel

/-! ### C47: null pools -/

/-- C47 for null pools, as `C47_elastic_once`; tasks never wait for a thread. -/
theorem C47_null_once {ops : List Op} {s : Null} (h : ({} : Null).run ops = some s) :
    s.added.Perm (s.finished ++ beingRun s.threads) := by
  have inv := ninv_run ninv_new h
  rw [inv.order]
  exact inv.once

/-- C47 for null pools, as `C47_elastic_destroyed`. -/
theorem C47_null_destroyed {ops : List Op} {s s' : Null} (h : ({} : Null).run ops = some s)
    (hd : s.step .destroyed = some s') :
    s'.finished.Perm s'.added ∧ (∀ t ∈ s'.threads, t = .exited) ∧ ∀ op, s'.step op = none := by
  have inv := ninv_run ninv_new h
  simp only [Null.step] at hd
  split at hd
  · rename_i hg
    cases hd
    have hl : number Live s.threads = 0 := by rw [← inv.active]; exact hg.2.2
    have hno : ∀ (i : Nat) (t : Th), s.threads[i]? = some t → t = .exited := by
      intro i t ht
      have := number_zero Live hl ht
      unfold Live at this
      simpa using this
    refine ⟨?_, ?_, ?_⟩
    · have h1 := inv.once
      rw [beingRun_none hl, List.append_nil] at h1
      rw [inv.order]
      exact h1.symm
    · intro t ht
      obtain ⟨i, hi, rfl⟩ := List.getElem_of_mem ht
      exact hno i _ (List.getElem?_eq_getElem hi)
    · intro op
      cases op <;> simp only [Null.step]
      all_goals first
        | (simp [hg.1]; done)
        | (split <;> first | (rename_i hk; exact absurd (hno _ _ hk) (by simp)) | rfl)
  · cases hd

/-- C47 for null pools, as `C47_elastic_never_stuck`. -/
theorem C47_null_never_stuck {ops : List Op} {s : Null} (h : ({} : Null).run ops = some s)
    (hleft : s.finished.length < s.added.length ∨ ∃ t ∈ s.threads, Live t) :
    ∃ op, Works op ∧ (s.step op).isSome := by
  have inv := ninv_run ninv_new h
  rcases hleft with hlt | ⟨t, hm, hl⟩
  · have hr : beingRun s.threads ≠ [] := by
      intro hr
      have h1 := inv.once.length_eq
      rw [hr, List.append_nil, ← inv.order] at h1
      omega
    obtain ⟨i, task, hi⟩ := beingRun_pos hr
    exact ⟨.finish i, trivial, by simp [Null.step, hi]⟩
  · obtain ⟨i, hi, rfl⟩ := List.getElem_of_mem hm
    have ht := List.getElem?_eq_getElem hi
    have hk := inv.kinds i _ ht
    generalize s.threads[i] = t at ht hk hl
    cases t with
    | running task => exact ⟨.finish i, trivial, by simp [Null.step, ht]⟩
    | between did => exact ⟨.wait i, trivial, by simp [Null.step, ht]⟩
    | waiting timed => exact absurd ⟨_, rfl⟩ hk
    | exited => exact absurd rfl hl

/-- C47 for null pools, as `C47_elastic_decreases`. -/
theorem C47_null_decreases {s s' : Null} {op : Op} (hop : Works op) (h : s.step op = some s') :
    workLeft [] s'.threads < workLeft [] s.threads := by
  cases op with
  | finish i =>
    simp only [Null.step] at h
    split at h
    · rename_i task ht
      cases h
      have := workLeft_set (.between true) [] ht
      simp [beingRun, Busy, Live] at this
      dsimp only
      omega
    · cases h
  | wait i =>
    simp only [Null.step] at h
    split at h
    · rename_i did ht
      cases h
      have := workLeft_set .exited [] ht
      simp [beingRun, Busy, Live] at this
      dsimp only
      omega
    · cases h
  | wake i => simp [Null.step] at h
  | _ => exact hop.elim

example : ∃ s, ({} : Null).run [.add 1, .add 2, .finish 1, .addFrom 0 3, .wait 1, .finish 0, .finish 2] = some s ∧
    s.finished = [2, 1, 3] := by
  refine ⟨_, rfl, ?_⟩
  decide +kernel

/-! ### C48: a queued task has an idle worker -/

/-- Missing from the full property ("for every size"): sizes of three and more, see
`C48_stranded`. -/
theorem C48_idle_worker_partial {size : Nat} (hsize : size ≤ 2) {ops : List Op} {s : Elastic}
    (h : (Elastic.new size).run ops = some s) (hq : s.queue ≠ []) : ∃ t ∈ s.threads, Idle t := by
  have inv := einv_run (einv_new size) h
  have hmax : s.max = size := elastic_max h
  have := inv.small (by omega) hq
  rw [inv.idle, number_pos] at this
  obtain ⟨i, t, ht, hi⟩ := this
  exact ⟨t, List.mem_of_getElem? ht, hi⟩

example : ∃ s, (Elastic.new 2).run [.add 1, .add 2, .finish 0, .wait 0, .add 3] = some s ∧ s.queue = [3] := by
  refine ⟨_, rfl, ?_⟩
  decide +kernel

/-- In a pool of three threads a task can be queued while no thread is idle and no operation other than the
end of another task, or the adding of one more, takes it out. -/
theorem C48_stranded : ∃ (ops : List Op) (s : Elastic), (Elastic.new 3).run ops = some s ∧ s.queue = [6] ∧
    s.threads = [.running 1, .running 2, .running 4, .running 5] := by
  refine ⟨[.add 1, .add 2, .add 3, .finish 2, .wait 2, .add 4, .add 5, .add 6, .wake 2], _, rfl, ?_⟩
  decide +kernel

/-! ### C119: tasks wait only if enough threads are at work -/

/-- C119.  A task is in the queue while no thread waits only if at least as many threads as the
configured size exist. -/
theorem C119_enough_threads {size : Nat} {ops : List Op} {s : Elastic}
    (h : (Elastic.new size).run ops = some s) (hq : s.queue ≠ []) (hidle : ∀ t ∈ s.threads, ¬ Idle t) :
    size ≤ number Live s.threads := by
  have inv := einv_run (einv_new size) h
  have hmax : s.max = size := elastic_max h
  have h0 : s.idle = 0 := by
    rw [inv.idle]
    cases hn : number Idle s.threads with
    | zero => rfl
    | succ k =>
      obtain ⟨i, t, ht, hi⟩ := (number_pos Idle).1 (by rw [hn]; omega)
      exact absurd hi (hidle t (List.mem_of_getElem? ht))
  have h1 := inv.served hq
  have h2 := List.length_pos_iff.2 hq
  rw [← inv.active]
  omega

/-- The hypotheses are met by the pool of `C48_stranded`. -/
example : ∃ (ops : List Op) (s : Elastic), (Elastic.new 3).run ops = some s ∧ s.queue ≠ [] ∧
    ∀ t ∈ s.threads, ¬ Idle t := by
  refine ⟨[.add 1, .add 2, .add 3, .finish 2, .wait 2, .add 4, .add 5, .add 6, .wake 2], _, rfl, ?_⟩
  decide +kernel

/-! ### C120: idle threads -/

/-- C120.  At most as many threads as the configured size wait without a time limit. -/
theorem C120_idle_bound {size : Nat} {ops : List Op} {s : Elastic} (h : (Elastic.new size).run ops = some s) :
    number (fun t => t = .waiting false) s.threads ≤ size := by
  have inv := einv_run (einv_new size) h
  have := inv.untimed
  rw [show s.max = size from elastic_max h] at this
  exact this

/-- C120.  A thread that begins to wait gets a time limit exactly if more threads than the configured size
wait. -/
theorem C120_time_limit {size : Nat} {ops : List Op} {s s' : Elastic} {i : Nat}
    (h : (Elastic.new size).run ops = some s) (hw : s.step (.wait i) = some s') :
    s'.threads[i]? = some (.waiting (decide (size < number Idle s'.threads))) := by
  have inv := einv_run (einv_new size) h
  have inv' := einv_step inv hw
  have hmax : s.max = size := elastic_max h
  have hidle := inv'.idle
  simp only [Elastic.step] at hw
  split at hw
  · rename_i did ht
    cases hw
    rw [← hidle]
    have hi : i < s.threads.length := (List.getElem?_eq_some_iff.1 ht).1
    simp only [Elastic.wait, List.getElem?_set_self hi, hmax, gt_iff_lt]
  · cases hw

/-- C120.  A thread whose wait reaches the time limit ends, unless fewer threads than the configured
size would be left waiting. -/
theorem C120_retires {size : Nat} {ops : List Op} {s s' : Elastic} {i : Nat}
    (h : (Elastic.new size).run ops = some s) (hw : s.step (.timeout i) = some s') :
    if size ≤ number Idle s'.threads then s'.threads[i]? = some .exited
    else s'.threads[i]? = some (.between false) := by
  have inv := einv_run (einv_new size) h
  have inv' := einv_step inv hw
  have hmax : s.max = size := elastic_max h
  have hidle := inv'.idle
  simp only [Elastic.step] at hw
  split at hw
  · rename_i ht
    split at hw
    · cases hw
      rw [← hidle]
      have hi : i < s.threads.length := (List.getElem?_eq_some_iff.1 ht).1
      unfold Elastic.timeout
      dsimp only
      rw [hmax]
      by_cases hc : s.idle - 1 ≥ size
      · simp only [if_pos hc]
        exact List.getElem?_set_self hi
      · simp only [if_neg hc]
        exact List.getElem?_set_self hi
    · cases hw
  · cases hw

example : ∃ (s s' : Elastic), (Elastic.new 1).run [.add 1, .add 2, .finish 0, .finish 1, .wait 0, .wait 1] = some s ∧
    s.threads = [.waiting false, .waiting true] ∧ s.step (.timeout 1) = some s' ∧
    s'.threads = [.waiting false, .exited] := by
  refine ⟨_, _, rfl, ?_, rfl, ?_⟩ <;> decide +kernel

/-! ### C121: statistics -/

/-- C121.  The statistics count the threads started, and the completed tasks except those whose thread
has not locked the mutex again; when all threads wait or have ended they count all completed tasks. -/
theorem C121_stats {size : Nat} {ops : List Op} {s : Elastic} (h : (Elastic.new size).run ops = some s) :
    s.launched = s.threads.length ∧ s.count ≤ s.finished.length ∧
    s.finished.length ≤ s.count + number Busy s.threads := by
  have inv := einv_run (einv_new size) h
  have hc := inv.count
  have hle : number Uncounted s.threads ≤ number Busy s.threads := by
    unfold number
    apply List.countP_mono_left
    intro t _ htu
    simp only [decide_eq_true_eq] at htu ⊢
    exact ⟨_, htu⟩
  exact ⟨inv.launched, by omega, by omega⟩

example : ∃ s, (Elastic.new 3).run (sampleOps ++ [.destroyed]) = some s ∧ s.count = 5 ∧ s.launched = 4 := by
  refine ⟨_, rfl, ?_⟩
  decide +kernel

/-! ### C122: creation -/

/-- C122.  A pool is made exactly if the size is positive and the type is known (the empty type means
elastic), and it is an empty pool of that type and size. -/
theorem C122_create (type : Str) (size : Int) (p : Pool) :
    createThreadpool type size = .ok p ↔ 1 ≤ size ∧
      ((type = "simple".toList ∧ p = .simple (.new size.toNat)) ∨
       (type = [] ∧ p = .elastic (.new size.toNat)) ∨
       (type = "elastic".toList ∧ p = .elastic (.new size.toNat)) ∨
       (type = "null".toList ∧ p = .null {})) := by
  unfold createThreadpool
  have d1 : "simple".toList ≠ [] := by decide
  have d2 : "simple".toList ≠ "elastic".toList := by decide
  have d3 : "simple".toList ≠ "null".toList := by decide
  have d4 : "elastic".toList ≠ "null".toList := by decide
  have d5 : "null".toList ≠ [] := by decide
  generalize "simple".toList = a at *
  generalize "elastic".toList = b at *
  generalize "null".toList = c at *
  split
  · rename_i h1; simp; omega
  · rename_i h1
    have h1' : 1 ≤ size := by omega
    split
    · rename_i h2; subst h2; simp [h1', d1, d2, d3, eq_comm]
    · rename_i h2
      split
      · rename_i h3
        rcases h3 with rfl | rfl
        · simp [h1', h2, d5.symm, eq_comm]
        · simp [h1', h2, d4, eq_comm]
      · rename_i h3
        have h4 : ¬ type = [] := fun h => h3 (Or.inl h)
        have h5 : ¬ type = b := fun h => h3 (Or.inr h)
        split
        · rename_i h6; subst h6; simp [h1', h2, h4, h5, eq_comm]
        · rename_i h6; simp [h2, h4, h5, h6]

example : createThreadpool "elastic".toList 4 = .ok (.elastic { max := 4 }) := by decide +kernel
example : createThreadpool "elastic".toList 0 = .error "Threadpool size must be positive" := by decide +kernel

end Distbench.Threadpool
