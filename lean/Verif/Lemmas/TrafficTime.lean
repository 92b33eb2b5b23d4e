import Verif.Lemmas.TrafficWork
import Verif.Lemmas.TrafficLive
import Verif.Spec.TrafficTime

/-! Lemmas for Props/TrafficTime.lean. -/

namespace Distbench.Traffic
open Spec

/-! ### Runs -/

theorem trun_append (cfg : Config) (s : TState) (a b : List TOp) :
    trun cfg s (a ++ b) = match trun cfg s a with
      | none => none
      | some s' => trun cfg s' b := by
  induction a generalizing s with
  | nil => rfl
  | cons op a ih =>
    rw [List.cons_append, trun, trun]
    cases tstep cfg s op with
    | none => rfl
    | some s' => exact ih s'

theorem tsnoc {cfg : Config} {s0 s : TState} {ops : List TOp} {op : TOp} :
    trun cfg s0 (ops ++ [op]) = some s ↔ ∃ s1, trun cfg s0 ops = some s1 ∧ tstep cfg s1 op = some s := by
  rw [trun_append]
  cases h : trun cfg s0 ops with
  | none => simp
  | some s1 =>
    dsimp only
    rw [trun]
    cases h1 : tstep cfg s1 op with
    | none => simp [h1]
    | some s2 => simp [trun, h1]

theorem trun_induction {cfg : Config} {s0 : TState} {P : List TOp → TState → Prop} (h0 : P [] s0)
    (h1 : ∀ ops s op s', trun cfg s0 ops = some s → P ops s → tstep cfg s op = some s' →
      P (ops ++ [op]) s')
    {ops : List TOp} {s : TState} (h : trun cfg s0 ops = some s) : P ops s := by
  have : ∀ r : List TOp, ∀ s, trun cfg s0 r.reverse = some s → P r.reverse s := by
    intro r
    induction r with
    | nil =>
      intro s hs
      have hs : some s0 = some s := hs
      cases hs
      exact h0
    | cons op r ih =>
      intro s hs
      rw [List.reverse_cons] at hs ⊢
      obtain ⟨s1, h2, h3⟩ := tsnoc.1 hs
      exact h1 _ _ _ _ h2 (ih s1 h2) h3
  have h' := this ops.reverse s
  rw [List.reverse_reverse] at h'
  exact h' h

/-! ### Steps -/

theorem tstep_base {cfg : Config} {s s' : TState} {op : Op} (h : tstep cfg s (.base op) = some s') :
    inTime cfg s op = true ∧ ∃ b, step cfg s.base op = some b ∧ s' = { s with base := b } := by
  rw [tstep] at h
  split at h
  · next ha =>
    rw [Option.map_eq_some_iff] at h
    obtain ⟨b, h1, h2⟩ := h
    exact ⟨ha, b, h1, h2.symm⟩
  · cases h

theorem tstep_late {cfg : Config} {s s' : TState} {j a : Nat} (h : tstep cfg s (.late j a) = some s') :
    ∃ job x left, s.base.jobs[j]? = some job ∧ (cfg.actions job.list)[a]? = some x ∧
      job.acts[a]? = some (.running left) ∧ x.timed ≠ none ∧ s.late j a = false ∧
      s' = { s with late := fun i b => (i == j && b == a) || s.late i b } := by
  rw [tstep] at h
  split at h
  · cases h
  · next job hj =>
    split at h
    · next x left hx hl =>
      split at h
      · next hg => cases h; exact ⟨job, x, left, hj, hx, hl, hg.1, hg.2, rfl⟩
      · cases h
    · cases h

theorem tstep_stop {cfg : Config} {s s' : TState} {j a : Nat} (h : tstep cfg s (.stop j a) = some s') :
    ∃ job x left, s.base.jobs[j]? = some job ∧ (cfg.actions job.list)[a]? = some x ∧
      job.acts[a]? = some (.running left) ∧ s.late j a = true ∧
      openIterations s.base j a x.iters = 0 ∧ x.timed.getD 0 ≤ x.iters - left ∧
      s' = { s with base :=
        { jobs := s.base.jobs.set j { job with acts := job.acts.set a .finished }
          calls := if job.early = some a then answer s.base.calls job.parent else s.base.calls } } := by
  rw [tstep] at h
  split at h
  · cases h
  · next job hj =>
    split at h
    · next x left hx hl =>
      split at h
      · next hg => cases h; exact ⟨job, x, left, hj, hx, hl, hg.1, hg.2.1, hg.2.2, rfl⟩
      · cases h
    · cases h

theorem inTime_free (cfg : Config) (b : State) (op : Op) : inTime cfg { base := b } op = true := by
  unfold inTime
  split
  · split
    · rfl
    · split <;> rfl
  · rfl

/-- As long as no time limit passes, the traffic is that of Model/Traffic.lean. -/
theorem time_run {cfg : Config} {b b' : State} {ops : List Op} (h : run cfg b ops = some b') :
    trun cfg { base := b } (ops.map .base) = some { base := b' } := by
  induction ops generalizing b with
  | nil =>
    have h : some b = some b' := h
    cases h
    rfl
  | cons op ops ih =>
    rw [run] at h
    rw [List.map_cons, trun, tstep, if_pos (inTime_free cfg b op)]
    dsimp only
    cases hs : step cfg b op with
    | none => rw [hs] at h; cases h
    | some b1 =>
      rw [hs] at h
      exact ih h

/-! ### The invariant -/

variable {R : Nat → Prop}

theorem inv_tstep {cfg : Config} {s s' : TState} {op : TOp} (h : Inv cfg R s.base)
    (hs : tstep cfg s op = some s') : Inv cfg R s'.base := by
  cases op with
  | base op =>
    obtain ⟨_, b, h1, rfl⟩ := tstep_base hs
    exact inv_step h h1
  | late j a => obtain ⟨_, _, _, _, _, _, _, _, rfl⟩ := tstep_late hs; exact h
  | stop j a =>
    obtain ⟨job, x, left, hj, hx, hw, _, hopen, _, rfl⟩ := tstep_stop hs
    exact inv_ended h hj hx hw hopen

theorem inv_trun {cfg : Config} {s0 s : TState} {ops : List TOp} (h0 : Inv cfg R s0.base)
    (h : trun cfg s0 ops = some s) : Inv cfg R s.base :=
  trun_induction (P := fun _ s => Inv cfg R s.base) h0 (fun _ _ _ _ _ hI hs => inv_tstep hI hs) h

theorem inv_timed {cfg : Config} {s : TState} {ops : List TOp} (h : TimedRun cfg ops s) :
    Inv cfg (fun _ => False) s.base :=
  inv_trun (inv_initial cfg) h

/-! ### The iterations that have begun -/

/-- What is known about the number of iterations of an action that have begun. -/
def ActBegun (n : Nat) (x : Action) (y : Act) : Prop :=
  n ≤ x.iters ∧ (y = .waiting → n = 0) ∧ ∀ left, y = .running left → n + left = x.iters

def Begun (cfg : Config) (n : Nat → Nat → Nat) (s : State) : Prop :=
  ∀ j, (s.jobs[j]? = none → ∀ a, n j a = 0) ∧
    ∀ job, s.jobs[j]? = some job → ∀ (a : Nat) (x : Action) (y : Act), (cfg.actions job.list)[a]? = some x →
      job.acts[a]? = some y → ActBegun (n j a) x y

/-- The iterations that begin in a step. -/
def opBegins : Op → Nat → Nat → Nat
  | .iterate i b _, j, a => if i = j ∧ b = a then 1 else 0
  | _, _, _ => 0

theorem begun_set {cfg : Config} {n n' : Nat → Nat → Nat} {s : State} {j : Nat} {job k : Job} {calls : List Call}
    (h : Begun cfg n s) (hj : s.jobs[j]? = some job) (hl : k.list = job.list) (hn : ∀ i, i ≠ j → ∀ a, n' i a = n i a)
    (hk : ∀ (a : Nat) (x : Action) (y : Act), (cfg.actions job.list)[a]? = some x → k.acts[a]? = some y →
      ActBegun (n' j a) x y) : Begun cfg n' { jobs := s.jobs.set j k, calls := calls } := by
  intro i
  dsimp only
  have hlt := (List.getElem?_eq_some_iff.1 hj).1
  by_cases hi : i = j
  · subst hi
    rw [List.getElem?_set_self hlt]
    refine ⟨fun h => (by cases h), fun job' hj' a x y hx hy => ?_⟩
    cases hj'
    exact hk a x y (by rw [← hl]; exact hx) hy
  · rw [List.getElem?_set_ne (Ne.symm hi)]
    obtain ⟨h1, h2⟩ := h i
    refine ⟨fun he a => (by rw [hn i hi]; exact h1 he a), fun job' hj' a x y hx hy => ?_⟩
    rw [hn i hi]
    exact h2 job' hj' a x y hx hy

theorem begun_acts {cfg : Config} {n n' : Nat → Nat → Nat} {s : State} {j a : Nat} {job : Job} {z : Act}
    {early : Option Nat} {calls : List Call}
    (h : Begun cfg n s) (hj : s.jobs[j]? = some job) (hn : ∀ i b, (i ≠ j ∨ b ≠ a) → n' i b = n i b)
    (hz : ∀ x, (cfg.actions job.list)[a]? = some x → ActBegun (n' j a) x z) :
    Begun cfg n' { jobs := s.jobs.set j { job with acts := job.acts.set a z, early := early }, calls := calls } := by
  refine begun_set h hj rfl (fun i hi b => hn i b (.inl hi)) ?_
  intro b x y hx hy
  rcases set_get hy with ⟨rfl, rfl⟩ | ⟨hne, hy⟩
  · exact hz x hx
  · rw [hn j b (.inr (Ne.symm hne))]
    exact (h j).2 job hj b x y hx hy

theorem begun_new {cfg : Config} {n : Nat → Nat → Nat} {s : State} {k : Job} {calls : List Call} (h : Begun cfg n s)
    (hk : ∀ (a : Nat) (y : Act), k.acts[a]? = some y → y = .waiting) :
    Begun cfg n { jobs := s.jobs ++ [k], calls := calls } := by
  intro i
  dsimp only
  refine ⟨fun he => (h i).1 ?_, fun job hj a x y hx hy => ?_⟩
  · rw [List.getElem?_eq_none_iff, List.length_append] at he
    rw [List.getElem?_eq_none_iff]
    omega
  · rcases jobs_append hj with hj | ⟨rfl, rfl⟩
    · exact (h i).2 job hj a x y hx hy
    · have h0 := (h s.jobs.length).1 (by simp) a
      have hy := hk a y hy
      subst hy
      rw [h0]
      exact ⟨Nat.zero_le _, fun _ => rfl, fun _ h => by cases h⟩

theorem begun_calls {cfg : Config} {n : Nat → Nat → Nat} {s : State} (calls : List Call) (h : Begun cfg n s) :
    Begun cfg n { s with calls := calls } := h

theorem begun_ended {cfg : Config} {n : Nat → Nat → Nat} {s : State} {j a left : Nat} {job : Job} {calls : List Call}
    (h : Begun cfg n s) (hj : s.jobs[j]? = some job) (hw : job.acts[a]? = some (.running left)) :
    Begun cfg n { jobs := s.jobs.set j { job with acts := job.acts.set a .finished }, calls := calls } := by
  refine begun_acts (early := job.early) h hj (fun _ _ _ => rfl) ?_
  intro x hx
  exact ⟨((h j).2 job hj a x _ hx hw).1, fun h => (by cases h), fun _ h => by cases h⟩

theorem begun_step {cfg : Config} {n : Nat → Nat → Nat} {s s' : State} {op : Op} (h : Begun cfg n s)
    (hs : step cfg s op = some s') : Begun cfg (fun j a => n j a + opBegins op j a) s' := by
  cases op with
  | start j a =>
    obtain ⟨job, x, hj, hx, hw, ho, hready, hd, rfl⟩ := step_start hs
    refine begun_acts h hj (fun _ _ _ => rfl) ?_
    intro x' hx'
    rw [hx] at hx'
    cases hx'
    have := ((h j).2 job hj a x _ hx hw).2.1 rfl
    simp only [opBegins, this]
    exact ⟨Nat.zero_le _, fun h => (by cases h), fun _ h => (by cases h; simp)⟩
  | skip j a =>
    obtain ⟨job, x, hj, hx, hw, ho, hready, hd, rfl⟩ := step_skip hs
    refine begun_acts h hj (fun _ _ _ => rfl) ?_
    intro x' hx'
    rw [hx] at hx'
    cases hx'
    have := ((h j).2 job hj a x _ hx hw).2.1 rfl
    simp only [opBegins, this]
    exact ⟨Nat.zero_le _, fun h => (by cases h), fun _ h => by cases h⟩
  | iterate j a t =>
    obtain ⟨job, x, left, hj, hx, hw, hcase⟩ := step_iterate hs
    have hset : ∀ calls, Begun cfg (fun i b => n i b + opBegins (.iterate j a t) i b)
        { jobs := s.jobs.set j { job with acts := job.acts.set a (.running left) }, calls := calls } := by
      intro calls
      refine begun_acts (early := job.early) h hj ?_ ?_
      · intro i b hne
        have : ¬ (j = i ∧ a = b) := by rintro ⟨rfl, rfl⟩; simp at hne
        simp only [opBegins, if_neg this, Nat.add_zero]
      · intro x' hx'
        rw [hx] at hx'
        cases hx'
        have := ((h j).2 job hj a x _ hx hw).2.2 _ rfl
        simp only [opBegins, and_self, if_true]
        exact ⟨by omega, fun h => (by cases h), fun l h => (by cases h; omega)⟩
    rcases hcase with ⟨q, hq, ht, rfl⟩ | ⟨l, hl, rfl⟩ | ⟨hl, rfl⟩
    · exact hset _
    · exact begun_new (hset s.calls) (fun a y => newJob_acts)
    · exact hset _
  | finish j a =>
    obtain ⟨job, x, hj, hx, hw, hopen, rfl⟩ := step_finish hs
    exact begun_ended h hj hw
  | deliver c =>
    obtain ⟨q, hr, hst, rfl⟩ := step_deliver hs
    exact h
  | dispatch c =>
    obtain ⟨q, l, hr, hl, hst, hfree, rfl⟩ := step_dispatch hs
    exact begun_new h (fun a y => newJob_acts)
  | endJob j =>
    obtain ⟨job, hj, ho, hall, rfl⟩ := step_endJob hs
    exact begun_set h hj rfl (fun _ _ _ => rfl) ((h j).2 job hj)
  | complete c =>
    obtain ⟨q, hr, hst, rfl⟩ := step_complete hs
    exact h

theorem begun_initial (cfg : Config) : Begun cfg (fun _ _ => 0) (initial cfg) := by
  intro j
  refine ⟨fun _ _ => rfl, ?_⟩
  intro job hj a x y hx hy
  have hm := List.mem_of_getElem? hj
  obtain ⟨r, _, rfl⟩ := List.mem_map.1 hm
  have := newJob_acts hy
  subst this
  exact ⟨Nat.zero_le _, fun _ => rfl, fun _ h => by cases h⟩

/-- The iterations that begin in a step. -/
def tbegins : TOp → Nat → Nat → Nat
  | .base op, j, a => opBegins op j a
  | _, _, _ => 0

theorem timed_snoc (ops : List TOp) (op : TOp) :
    timedIterations (ops ++ [op]) = fun j a => timedIterations ops j a + tbegins op j a := by
  funext j a
  unfold timedIterations
  rw [List.countP_append, List.countP_singleton]
  congr 1
  cases op with
  | base op =>
    cases op with
    | iterate i b t => simp [tbegins, opBegins]
    | _ => rfl
  | _ => rfl

theorem begun_timed {cfg : Config} {ops : List TOp} {s : TState} (h : TimedRun cfg ops s) :
    Begun cfg (timedIterations ops) s.base := by
  refine trun_induction (s0 := { base := initial cfg }) (P := fun ops s => Begun cfg (timedIterations ops) s.base)
    (begun_initial cfg) ?_ h
  intro ops s op s' hrun ih hs
  rw [timed_snoc]
  cases op with
  | base op =>
    obtain ⟨_, b, h1, rfl⟩ := tstep_base hs
    exact begun_step ih h1
  | late j a => obtain ⟨_, _, _, _, _, _, _, _, rfl⟩ := tstep_late hs; exact ih
  | stop j a =>
    obtain ⟨job, x, left, hj, hx, hw, _, hopen, _, rfl⟩ := tstep_stop hs
    exact begun_ended ih hj hw

/-! ### Runs of lists stay -/

theorem list_set {jobs : List Job} {i j : Nat} {job k job' : Job} (hi : jobs[i]? = some job)
    (hl : k.list = job.list) (hj : jobs[j]? = some job') :
    ∃ k', (jobs.set i k)[j]? = some k' ∧ k'.list = job'.list := by
  by_cases he : i = j
  · subst he
    rw [hi] at hj
    cases hj
    exact ⟨k, List.getElem?_set_self (List.getElem?_eq_some_iff.1 hi).1, hl⟩
  · exact ⟨job', by rw [List.getElem?_set_ne he]; exact hj, rfl⟩

theorem list_append {jobs : List Job} {j : Nat} {k job' : Job} {l : Nat}
    (hj : ∃ k', jobs[j]? = some k' ∧ k'.list = l) : ∃ k', (jobs ++ [k])[j]? = some k' ∧ k'.list = l := by
  obtain ⟨k', h1, h2⟩ := hj
  exact ⟨k', by rw [List.getElem?_append_left (List.getElem?_eq_some_iff.1 h1).1]; exact h1, h2⟩

theorem list_step {cfg : Config} {s s' : State} {op : Op} (hs : step cfg s op = some s') {j : Nat} {job : Job}
    (hj : s.jobs[j]? = some job) : ∃ k, s'.jobs[j]? = some k ∧ k.list = job.list := by
  cases op with
  | start i a =>
    obtain ⟨k, x, hk, hx, hw, ho, hready, hd, rfl⟩ := step_start hs
    exact list_set hk rfl hj
  | skip i a =>
    obtain ⟨k, x, hk, hx, hw, ho, hready, hd, rfl⟩ := step_skip hs
    exact list_set hk rfl hj
  | iterate i a t =>
    obtain ⟨k, x, left, hk, hx, hw, hcase⟩ := step_iterate hs
    rcases hcase with ⟨q, hq, ht, rfl⟩ | ⟨l, hl, rfl⟩ | ⟨hl, rfl⟩
    · exact list_set hk rfl hj
    · exact list_append (job' := job) (list_set hk rfl hj)
    · exact list_set hk rfl hj
  | finish i a =>
    obtain ⟨k, x, hk, hx, hw, hopen, rfl⟩ := step_finish hs
    exact list_set hk rfl hj
  | deliver c =>
    obtain ⟨q, hr, hst, rfl⟩ := step_deliver hs
    exact ⟨job, hj, rfl⟩
  | dispatch c =>
    obtain ⟨q, l, hr, hl, hst, hfree, rfl⟩ := step_dispatch hs
    exact list_append (job' := job) ⟨job, hj, rfl⟩
  | endJob i =>
    obtain ⟨k, hk, ho, hall, rfl⟩ := step_endJob hs
    exact list_set hk rfl hj
  | complete c =>
    obtain ⟨q, hr, hst, rfl⟩ := step_complete hs
    exact ⟨job, hj, rfl⟩

theorem list_tstep {cfg : Config} {s s' : TState} {op : TOp} (hs : tstep cfg s op = some s') {j : Nat} {job : Job}
    (hj : s.base.jobs[j]? = some job) : ∃ k, s'.base.jobs[j]? = some k ∧ k.list = job.list := by
  cases op with
  | base op =>
    obtain ⟨_, b, h1, rfl⟩ := tstep_base hs
    exact list_step h1 hj
  | late j a => obtain ⟨_, _, _, _, _, _, _, _, rfl⟩ := tstep_late hs; exact ⟨job, hj, rfl⟩
  | stop j a =>
    obtain ⟨k, x, left, hk, hx, hw, _, hopen, _, rfl⟩ := tstep_stop hs
    exact list_set hk rfl hj

/-- Only actions with time limits are late. -/
theorem late_timed {cfg : Config} {s : TState} {ops : List TOp} (h : TimedRun cfg ops s) :
    ∀ j a, s.late j a = true → ∃ job x, s.base.jobs[j]? = some job ∧ (cfg.actions job.list)[a]? = some x ∧
      x.timed ≠ none := by
  refine trun_induction (P := fun _ s => ∀ j a, s.late j a = true → ∃ job x, s.base.jobs[j]? = some job ∧
    (cfg.actions job.list)[a]? = some x ∧ x.timed ≠ none) (fun _ _ h => by cases h) ?_ h
  intro ops s op s' hrun ih hs j a hl
  have keep : s.late j a = true → ∃ job x, s'.base.jobs[j]? = some job ∧ (cfg.actions job.list)[a]? = some x ∧
      x.timed ≠ none := by
    intro hl
    obtain ⟨job, x, h1, h2, h3⟩ := ih j a hl
    obtain ⟨k, g1, g2⟩ := list_tstep hs h1
    exact ⟨k, x, g1, by rw [g2]; exact h2, h3⟩
  cases op with
  | base op => obtain ⟨_, b, h1, rfl⟩ := tstep_base hs; exact keep hl
  | late i b =>
    obtain ⟨job, x, left, g1, g2, g3, g4, g5, rfl⟩ := tstep_late hs
    simp only [Bool.or_eq_true, Bool.and_eq_true, beq_iff_eq] at hl
    rcases hl with ⟨rfl, rfl⟩ | hl
    · exact ⟨job, x, g1, g2, g4⟩
    · exact keep hl
  | stop i b =>
    obtain ⟨k, x, left, hk, hx, hw, _, hopen, _, rfl⟩ := tstep_stop hs
    exact keep hl

theorem late_stays {cfg : Config} {s s' : TState} {op : TOp} (hs : tstep cfg s op = some s') {j a : Nat}
    (hl : s.late j a = true) : s'.late j a = true := by
  cases op with
  | base op => obtain ⟨_, b, h1, rfl⟩ := tstep_base hs; exact hl
  | late i b =>
    obtain ⟨job, x, left, g1, g2, g3, g4, g5, rfl⟩ := tstep_late hs
    simp [hl]
  | stop i b =>
    obtain ⟨k, x, left, hk, hx, hw, _, hopen, _, rfl⟩ := tstep_stop hs
    exact hl

/-! ### Work that is left, if an action `x` makes `N x` iterations -/

def actLeftN (cfg : Config) (w : Weights) (G : Nat → Nat) (N : Action → Nat) (x : Action) : Act → Nat
  | .waiting => w.start + N x * iterWorth cfg w G x + w.fin
  | .running left => (N x - (x.iters - left)) * iterWorth cfg w G x + w.fin
  | .finished => 0
  | .skipped => 0

def jobLeftN (cfg : Config) (w : Weights) (G : Nat → Nat) (N : Action → Nat) (k : Job) : Nat :=
  (if k.over then 0 else w.job) + (List.zipWith (actLeftN cfg w G N) (cfg.actions k.list) k.acts).sum

def stateLeftN (cfg : Config) (w : Weights) (G : Nat → Nat) (N : Action → Nat) (s : State) : Nat :=
  (s.jobs.map (jobLeftN cfg w G N)).sum + (s.calls.map fun c => callLeft cfg w G c.rpc c.stage).sum

theorem iterWorth_with {cfg : Config} {w : Weights} {G : Nat → Nat} {N : Action → Nat} (x : Action) (n : Nat) :
    iterWorth (withIterations N cfg) w G { x with iters := n } = iterWorth cfg w G x := by
  unfold iterWorth callLeft withIterations
  cases x.work <;> rfl

theorem solves_with {cfg : Config} {w : Weights} {G : Nat → Nat} {N : Action → Nat} :
    Solves (withIterations N cfg) w G ↔
      ∀ l, G l = w.job + ((cfg.actions l).map fun x => actLeftN cfg w G N x .waiting).sum := by
  unfold Solves
  refine forall_congr' fun l => ?_
  have : (((withIterations N cfg).actions l).map fun x => actLeft (withIterations N cfg) w G x .waiting) =
      ((cfg.actions l).map fun x => actLeftN cfg w G N x .waiting) := by
    unfold withIterations
    dsimp only
    rw [List.map_map]
    apply List.map_congr_left
    intro x _
    simp only [Function.comp, actLeft, actLeftN]
    have := iterWorth_with (cfg := cfg) (w := w) (G := G) (N := N) x (N x)
    unfold withIterations at this
    rw [this]
  rw [this]

section
variable {cfg : Config} {w : Weights} {G : Nat → Nat} {N : Action → Nat}

theorem newJob_leftN (h : Solves (withIterations N cfg) w G) (e l : Nat) (p : Parent) :
    jobLeftN cfg w G N (newJob cfg e l p) = G l := by
  rw [solves_with.1 h l]
  unfold jobLeftN newJob
  simp only [Bool.false_eq_true, if_false]
  congr 1
  induction cfg.actions l with
  | nil => rfl
  | cons x xs ih => simp [ih]

theorem acts_leftN {job : Job} {a : Nat} {x : Action} {y : Act} (z : Act) (early : Option Nat)
    (hx : (cfg.actions job.list)[a]? = some x) (hy : job.acts[a]? = some y) :
    jobLeftN cfg w G N { job with acts := job.acts.set a z, early := early } + actLeftN cfg w G N x y =
      jobLeftN cfg w G N job + actLeftN cfg w G N x z := by
  have := zip_sum_set (actLeftN cfg w G N) z hx hy
  unfold jobLeftN
  dsimp only
  omega

theorem jobs_leftN {jobs : List Job} {j : Nat} {job : Job} (k : Job) (h : jobs[j]? = some job) :
    ((jobs.set j k).map (jobLeftN cfg w G N)).sum + jobLeftN cfg w G N job =
      (jobs.map (jobLeftN cfg w G N)).sum + jobLeftN cfg w G N k :=
  sum_set _ _ h

/-- An action ends, at its last iteration or because of its time limit. -/
theorem leftN_ended {s : State} {j a n : Nat} {job : Job} {x : Action} (h : Inv cfg R s)
    (hj : s.jobs[j]? = some job) (hx : (cfg.actions job.list)[a]? = some x)
    (hw : job.acts[a]? = some (.running n)) :
    w.fin + (N x - (x.iters - n)) * iterWorth cfg w G x + stateLeftN cfg w G N {
      jobs := s.jobs.set j { job with acts := job.acts.set a .finished }
      calls := if job.early = some a then answer s.calls job.parent else s.calls } =
      stateLeftN cfg w G N s := by
  have h1 := acts_leftN (cfg := cfg) (w := w) (G := G) (N := N) .finished job.early hx hw
  have h2 := jobs_leftN (cfg := cfg) (w := w) (G := G) (N := N) { job with acts := job.acts.set a .finished } hj
  have h3 : ((if job.early = some a then answer s.calls job.parent else s.calls).map
      fun c => callLeft cfg w G c.rpc c.stage).sum =
      (s.calls.map fun c => callLeft cfg w G c.rpc c.stage).sum := by
    split
    · next he =>
      refine answer_left _ _ (running_of_unanswered h hj ⟨over_false h hj hw, ?_⟩)
      intro b y hb hy
      rw [he] at hb
      cases hb
      rw [hw] at hy
      cases hy
      rfl
    · rfl
  unfold stateLeftN
  simp only [actLeftN] at h1
  dsimp only at h2 ⊢
  rw [h3]
  omega

theorem leftN_start {s s' : State} {j a : Nat} (hs : step cfg s (.start j a) = some s') :
    w.start + stateLeftN cfg w G N s' = stateLeftN cfg w G N s := by
  obtain ⟨job, x, hj, hx, hw, ho, hready, hd, rfl⟩ := step_start hs
  have h1 := acts_leftN (cfg := cfg) (w := w) (G := G) (N := N) (.running x.iters) (designate cfg job x a) hx hw
  have h2 := jobs_leftN (cfg := cfg) (w := w) (G := G) (N := N)
    { job with acts := job.acts.set a (.running x.iters), early := designate cfg job x a } hj
  unfold stateLeftN
  simp only [actLeftN, Nat.sub_self, Nat.sub_zero] at h1
  dsimp only at h2 ⊢
  omega

theorem leftN_skip {s s' : State} {j a : Nat} (h : Inv cfg R s) (hs : step cfg s (.skip j a) = some s') :
    w.start + stateLeftN cfg w G N s' ≤ stateLeftN cfg w G N s := by
  obtain ⟨job, x, hj, hx, hw, ho, hready, hd, rfl⟩ := step_skip hs
  have h1 := acts_leftN (cfg := cfg) (w := w) (G := G) (N := N) .skipped (designate cfg job x a) hx hw
  have h2 := jobs_leftN (cfg := cfg) (w := w) (G := G) (N := N)
    { job with acts := job.acts.set a .skipped, early := designate cfg job x a } hj
  have h3 : ((if designate cfg job x a = some a then answer s.calls job.parent else s.calls).map
      fun c => callLeft cfg w G c.rpc c.stage).sum =
      (s.calls.map fun c => callLeft cfg w G c.rpc c.stage).sum := by
    split
    · next hdes => exact answer_left _ _ (running_of_unanswered h hj (skip_unanswered h hj hw ho hdes))
    · rfl
  unfold stateLeftN
  simp only [actLeftN] at h1
  dsimp only at h2 ⊢
  rw [h3]
  omega

theorem leftN_endJob {s s' : State} {j : Nat} (h : Inv cfg R s) (hs : step cfg s (.endJob j) = some s') :
    w.job + stateLeftN cfg w G N s' = stateLeftN cfg w G N s := by
  obtain ⟨job, hj, ho, hall, rfl⟩ := step_endJob hs
  have h1 : jobLeftN cfg w G N { job with over := true } + w.job = jobLeftN cfg w G N job := by
    unfold jobLeftN
    simp [ho]
    omega
  have h2 := jobs_leftN (cfg := cfg) (w := w) (G := G) (N := N) { job with over := true } hj
  have h3 : ((if job.early = none then answer s.calls job.parent else s.calls).map
      fun c => callLeft cfg w G c.rpc c.stage).sum =
      (s.calls.map fun c => callLeft cfg w G c.rpc c.stage).sum := by
    split
    · next he =>
      refine answer_left _ _ (running_of_unanswered h hj ⟨ho, ?_⟩)
      intro b y hb hy
      rw [he] at hb
      cases hb
    · rfl
  unfold stateLeftN
  dsimp only at h2 ⊢
  rw [h3]
  omega

/-- Steps that change RPCs only, or begin the list that handles one. -/
theorem leftN_calls {s s' : State} {op : Op} (hG : Solves (withIterations N cfg) w G)
    (hs : step cfg s op = some s')
    (hop : (∃ c, op = .deliver c) ∨ (∃ c, op = .dispatch c) ∨ ∃ c, op = .complete c) :
    opWorth cfg w s op + stateLeftN cfg w G N s' = stateLeftN cfg w G N s := by
  rcases hop with ⟨c, rfl⟩ | ⟨c, rfl⟩ | ⟨c, rfl⟩
  · have h0 := left_deliver (w := w) (G := G) hs
    obtain ⟨r, hr, hst, rfl⟩ := step_deliver hs
    unfold stateLeft at h0
    unfold stateLeftN opWorth
    dsimp only at h0 ⊢
    omega
  · obtain ⟨r, l, hr, hl, hst, hfree, rfl⟩ := step_dispatch hs
    have h2 := sum_set (fun c => callLeft cfg w G c.rpc c.stage) ({ r with stage := .running } : Call) hr
    have h3 := newJob_leftN hG r.target l (.call c)
    unfold stateLeftN opWorth
    dsimp only at h2 ⊢
    rw [hst] at h2
    have e1 : callLeft cfg w G r.rpc .queued = w.dispatch + G l + w.complete := by simp only [callLeft, hl]
    have e2 : callLeft cfg w G r.rpc .running = w.complete := rfl
    rw [e1, e2] at h2
    rw [List.map_append, List.sum_append]
    simp only [List.map_cons, List.map_nil, List.sum_cons, List.sum_nil]
    rw [h3]
    omega
  · have h0 := left_complete (w := w) (G := G) hs
    obtain ⟨r, hr, hst, rfl⟩ := step_complete hs
    unfold stateLeft at h0
    unfold stateLeftN opWorth
    dsimp only at h0 ⊢
    omega

theorem leftN_iterate {s s' : State} {j a : Nat} {targets : List Nat} (hG : Solves (withIterations N cfg) w G)
    (h : Inv cfg R s) (hs : step cfg s (.iterate j a targets) = some s') :
    ∃ (job : Job) (x : Action) (left : Nat), s.jobs[j]? = some job ∧ (cfg.actions job.list)[a]? = some x ∧
      job.acts[a]? = some (.running (left + 1)) ∧
      (x.iters - (left + 1) < N x →
        opWorth cfg w s (.iterate j a targets) + stateLeftN cfg w G N s' = stateLeftN cfg w G N s) ∧
      stateLeftN cfg w G N s ≤ opWorth cfg w s (.iterate j a targets) + stateLeftN cfg w G N s' := by
  obtain ⟨job, x, left, hj, hx, hw, hcase⟩ := step_iterate hs
  refine ⟨job, x, left, hj, hx, hw, ?_⟩
  have hle := h.left j job a _ x hj hw hx
  have h1 := acts_leftN (cfg := cfg) (w := w) (G := G) (N := N) (.running left) job.early hx hw
  have h2 := jobs_leftN (cfg := cfg) (w := w) (G := G) (N := N)
    { job with acts := job.acts.set a (.running left) } hj
  simp only [actLeftN] at h1
  -- what the iteration is worth, and what the action loses
  have key : opWorth cfg w s (.iterate j a targets) + stateLeftN cfg w G N s' +
      (N x - (x.iters - (left + 1))) * iterWorth cfg w G x =
      stateLeftN cfg w G N s + iterWorth cfg w G x + (N x - (x.iters - left)) * iterWorth cfg w G x := by
    generalize hA : (N x - (x.iters - (left + 1))) * iterWorth cfg w G x = A at *
    generalize hB : (N x - (x.iters - left)) * iterWorth cfg w G x = B at *
    clear hA hB hle
    obtain ⟨deps, work, iters, parallel, responds, conditional, timed⟩ := x
    rcases hcase with ⟨q, hq, ht, rfl⟩ | ⟨l, hl, rfl⟩ | ⟨hl, rfl⟩
    · dsimp only at hq
      subst hq
      have h4 := newCalls_left (cfg := cfg) (w := w) (G := G) q j a left targets
      unfold stateLeftN opWorth
      dsimp only at h2 ⊢
      rw [hj]
      dsimp only
      rw [hx]
      dsimp only
      rw [List.map_append, List.sum_append, h4]
      have : iterWorth cfg w G ⟨deps, .rpc q targets.length, iters, parallel, responds, conditional, timed⟩ =
          w.iter + (targets.length * w.call q + targets.length * callLeft cfg w G q .sent) := by
        unfold iterWorth
        dsimp only
        rw [Nat.mul_add]
      generalize targets.length * w.call q = A at *
      generalize targets.length * callLeft cfg w G q .sent = B at *
      omega
    · dsimp only at hl
      subst hl
      have h3 := newJob_leftN hG job.engine l (.action j a left)
      unfold stateLeftN opWorth
      dsimp only at h2 ⊢
      rw [hj]
      dsimp only
      rw [hx]
      dsimp only
      rw [List.map_append, List.sum_append]
      simp only [List.map_cons, List.map_nil, List.sum_cons, List.sum_nil]
      rw [h3]
      have : iterWorth cfg w G ⟨deps, .list l, iters, parallel, responds, conditional, timed⟩ =
          w.iter + G l := rfl
      omega
    · dsimp only at hl
      subst hl
      unfold stateLeftN opWorth
      dsimp only at h2 ⊢
      rw [hj]
      dsimp only
      rw [hx]
      dsimp only
      have : iterWorth cfg w G ⟨deps, .other, iters, parallel, responds, conditional, timed⟩ = w.iter + 0 := rfl
      omega
  have hone : x.iters - (left + 1) < N x →
      (N x - (x.iters - (left + 1))) * iterWorth cfg w G x =
        iterWorth cfg w G x + (N x - (x.iters - left)) * iterWorth cfg w G x := by
    intro hlt
    have : N x - (x.iters - (left + 1)) = 1 + (N x - (x.iters - left)) := by omega
    rw [this, Nat.add_mul, Nat.one_mul]
  by_cases hlt : x.iters - (left + 1) < N x
  · have := hone hlt
    exact ⟨fun _ => by omega, by omega⟩
  · have h0 : N x - (x.iters - (left + 1)) = 0 := by omega
    rw [h0, Nat.zero_mul] at key
    exact ⟨fun hn => absurd hn hlt, by omega⟩

theorem stepN_le {s s' : State} {op : Op} (hG : Solves (withIterations N cfg) w G) (h : Inv cfg R s)
    (hs : step cfg s op = some s')
    (hlt : ∀ j a t job x left, op = .iterate j a t → s.jobs[j]? = some job → (cfg.actions job.list)[a]? = some x →
      job.acts[a]? = some (.running (left + 1)) → x.iters - (left + 1) < N x) :
    opWorth cfg w s op + stateLeftN cfg w G N s' ≤ stateLeftN cfg w G N s := by
  cases op with
  | start j a => exact Nat.le_of_eq (leftN_start hs)
  | skip j a => exact leftN_skip h hs
  | iterate j a t =>
    obtain ⟨job, x, left, hj, hx, hw, h1, _⟩ := leftN_iterate hG h hs
    exact Nat.le_of_eq (h1 (hlt j a t job x left rfl hj hx hw))
  | finish j a =>
    obtain ⟨job, x, hj, hx, hw, hopen, rfl⟩ := step_finish hs
    have := leftN_ended (w := w) (G := G) (N := N) h hj hx hw
    simp only [opWorth]
    omega
  | deliver c => exact Nat.le_of_eq (leftN_calls hG hs (.inl ⟨c, rfl⟩))
  | dispatch c => exact Nat.le_of_eq (leftN_calls hG hs (.inr (.inl ⟨c, rfl⟩)))
  | endJob j => exact Nat.le_of_eq (leftN_endJob h hs)
  | complete c => exact Nat.le_of_eq (leftN_calls hG hs (.inr (.inr ⟨c, rfl⟩)))

theorem stepN_ge {s s' : State} {op : Op} (hG : Solves (withIterations N cfg) w G) (hN : ∀ x, N x ≤ x.iters)
    (h : Inv cfg R s) (hs : step cfg s op = some s') (hn : ∀ j a, op ≠ .skip j a) :
    stateLeftN cfg w G N s ≤ opWorth cfg w s op + stateLeftN cfg w G N s' := by
  cases op with
  | start j a => exact Nat.le_of_eq (leftN_start hs).symm
  | skip j a => exact absurd rfl (hn j a)
  | iterate j a t =>
    obtain ⟨job, x, left, hj, hx, hw, _, h1⟩ := leftN_iterate hG h hs
    exact h1
  | finish j a =>
    obtain ⟨job, x, hj, hx, hw, hopen, rfl⟩ := step_finish hs
    have := leftN_ended (w := w) (G := G) (N := N) h hj hx hw
    have h0 : N x - (x.iters - 0) = 0 := by have := hN x; omega
    rw [h0, Nat.zero_mul] at this
    simp only [opWorth]
    omega
  | deliver c => exact Nat.le_of_eq (leftN_calls hG hs (.inl ⟨c, rfl⟩)).symm
  | dispatch c => exact Nat.le_of_eq (leftN_calls hG hs (.inr (.inl ⟨c, rfl⟩))).symm
  | endJob j => exact Nat.le_of_eq (leftN_endJob h hs).symm
  | complete c => exact Nat.le_of_eq (leftN_calls hG hs (.inr (.inr ⟨c, rfl⟩))).symm

theorem initial_leftN (hG : Solves (withIterations N cfg) w G) :
    stateLeftN cfg w G N (initial cfg) = (cfg.roots.map fun r => G r.2).sum := by
  unfold stateLeftN initial
  dsimp only
  rw [List.map_map]
  simp only [List.map_nil, List.sum_nil, Nat.add_zero]
  congr 1
  apply List.map_congr_left
  intro r _
  exact newJob_leftN hG _ _ _

theorem over_leftN {s : State} (h : Inv cfg R s) (ho : TrafficOver s) : stateLeftN cfg w G N s = 0 := by
  unfold stateLeftN
  rw [sum_zero, sum_zero]
  · intro n hn
    obtain ⟨c, hc, rfl⟩ := List.mem_map.1 hn
    rw [ho.2 c hc]
    rfl
  · intro n hn
    obtain ⟨k, hk, rfl⟩ := List.mem_map.1 hn
    obtain ⟨j, hj⟩ := List.getElem?_of_mem hk
    have hov := ho.1 k hk
    unfold jobLeftN
    rw [if_pos hov, sum_zero]
    intro m hm
    obtain ⟨i, hi⟩ := List.getElem?_of_mem hm
    rw [List.getElem?_zipWith] at hi
    cases h1 : (cfg.actions k.list)[i]? with
    | none => rw [h1] at hi; simp at hi
    | some x =>
      cases h2 : k.acts[i]? with
      | none => rw [h1, h2] at hi; simp at hi
      | some y =>
        rw [h1, h2] at hi
        simp at hi
        have := h.over j k hj hov i y h2
        cases y with
        | waiting => cases this
        | running n => cases this
        | finished => exact hi.symm
        | skipped => exact hi.symm

end

/-! ### Counting -/

theorem rpcsMade_ended (calls : List Call) (c : Prop) [Decidable c] (p : Parent) (jobs : List Job) (r : Nat) :
    rpcsMade { jobs := jobs, calls := if c then answer calls p else calls } r =
      calls.countP fun c => c.rpc = r := by
  unfold rpcsMade
  dsimp only
  split
  · exact answer_count _ _ _
  · rfl

theorem beginsAtMost_prefix {cfg : Config} {N : Action → Nat} {ops : List TOp} {op : TOp} {s s' : TState}
    (hs : tstep cfg s op = some s') (h : BeginsAtMost cfg N (ops ++ [op]) s') : BeginsAtMost cfg N ops s := by
  intro j job a x hj hx
  obtain ⟨k, h1, h2⟩ := list_tstep hs hj
  have := h j k a x h1 (by rw [h2]; exact hx)
  rw [timed_snoc] at this
  dsimp only at this
  omega

/-- An iteration that begins is one of the first `N x`. -/
theorem iterate_lt {cfg : Config} {N : Action → Nat} {ops : List TOp} {op : Op} {s s' : TState}
    (hrun : TimedRun cfg ops s) (hs : tstep cfg s (.base op) = some s')
    (h : BeginsAtMost cfg N (ops ++ [.base op]) s') :
    ∀ j a t job x left, op = .iterate j a t → s.base.jobs[j]? = some job → (cfg.actions job.list)[a]? = some x →
      job.acts[a]? = some (.running (left + 1)) → x.iters - (left + 1) < N x := by
  rintro j a t job x left rfl hj hx hw
  obtain ⟨k, h1, h2⟩ := list_tstep hs hj
  have h3 := h j k a x h1 (by rw [h2]; exact hx)
  rw [timed_snoc] at h3
  simp only [tbegins, opBegins, and_self, if_true] at h3
  have h4 := ((begun_timed hrun j).2 job hj a x _ hx hw).2.2 _ rfl
  omega

/-- At most what the iterations that begin are worth. -/
theorem rpcs_leftN {cfg : Config} {N : Action → Nat} {r : Nat} {E : Nat → Nat} {ops : List TOp} {s : TState}
    (hE : Predicts (withIterations N cfg) r E) (h : TimedRun cfg ops s) (hb : BeginsAtMost cfg N ops s) :
    rpcsMade s.base r + stateLeftN cfg (countRpc r) E N s.base ≤ (cfg.roots.map fun x => E x.2).sum := by
  have hG := predicts_iff.1 hE
  revert hb
  refine trun_induction (s0 := { base := initial cfg }) (P := fun ops s => BeginsAtMost cfg N ops s →
    rpcsMade s.base r + stateLeftN cfg (countRpc r) E N s.base ≤ (cfg.roots.map fun x => E x.2).sum) ?_ ?_ h
  · intro _
    have : rpcsMade (initial cfg) r = 0 := rfl
    dsimp only
    rw [this, initial_leftN hG]
    omega
  · intro ops s op s' hrun ih hs hb
    have ih := ih (beginsAtMost_prefix hs hb)
    have hI := inv_timed hrun
    cases op with
    | base op =>
      have hlt := iterate_lt hrun hs hb
      obtain ⟨_, b, h1, rfl⟩ := tstep_base hs
      have h3 := stepN_le hG hI h1 hlt
      have h5 := rpcsMade_step r h1
      dsimp only
      omega
    | late j a => obtain ⟨_, _, _, _, _, _, _, _, rfl⟩ := tstep_late hs; exact ih
    | stop j a =>
      obtain ⟨job, x, left, hj, hx, hw, _, hopen, _, rfl⟩ := tstep_stop hs
      have h3 := leftN_ended (w := countRpc r) (G := E) (N := N) hI hj hx hw
      dsimp only
      rw [rpcsMade_ended]
      unfold rpcsMade at ih
      omega

theorem tsteps_snoc (ops : List TOp) (op : TOp) :
    timedSteps (ops ++ [op]) = timedSteps ops + timedSteps [op] := by
  unfold timedSteps
  rw [List.countP_append]

theorem steps_leftN {cfg : Config} {N : Action → Nat} {G : Nat → Nat} {ops : List TOp} {s : TState}
    (hG : Solves (withIterations N cfg) countSteps G) (h : TimedRun cfg ops s) (hb : BeginsAtMost cfg N ops s) :
    timedSteps ops + stateLeftN cfg countSteps G N s.base ≤ (cfg.roots.map fun x => G x.2).sum := by
  revert hb
  refine trun_induction (s0 := { base := initial cfg }) (P := fun ops s => BeginsAtMost cfg N ops s →
    timedSteps ops + stateLeftN cfg countSteps G N s.base ≤ (cfg.roots.map fun x => G x.2).sum) ?_ ?_ h
  · intro _
    dsimp only
    rw [initial_leftN hG]
    simp [timedSteps]
  · intro ops s op s' hrun ih hs hb
    have ih := ih (beginsAtMost_prefix hs hb)
    have hI := inv_timed hrun
    rw [tsteps_snoc]
    cases op with
    | base op =>
      have hlt := iterate_lt hrun hs hb
      obtain ⟨_, b, h1, rfl⟩ := tstep_base hs
      have h3 := stepN_le hG hI h1 hlt
      have h5 := opWorth_steps cfg s.base op
      have h6 : timedSteps [.base op] = 1 := rfl
      dsimp only
      omega
    | late j a => obtain ⟨_, _, _, _, _, _, _, _, rfl⟩ := tstep_late hs; exact ih
    | stop j a =>
      obtain ⟨job, x, left, hj, hx, hw, _, hopen, _, rfl⟩ := tstep_stop hs
      have h3 := leftN_ended (w := countSteps) (G := G) (N := N) hI hj hx hw
      have h6 : timedSteps [.stop j a] = 1 := rfl
      have h7 : countSteps.fin = 1 := rfl
      dsimp only
      omega

/-- Without predicates nothing is skipped. -/
theorem timed_no_skip {cfg : Config} {ops : List TOp} {s : TState} (hu : Unconditional cfg)
    (h : TimedRun cfg ops s) : ∀ k ∈ s.base.jobs, ∀ (a : Nat), k.acts[a]? ≠ some .skipped := by
  refine trun_induction (s0 := { base := initial cfg })
    (P := fun _ s => ∀ k ∈ s.base.jobs, ∀ (a : Nat), k.acts[a]? ≠ some .skipped) ?_ ?_ h
  · intro k hk
    obtain ⟨r, _, rfl⟩ := List.mem_map.1 hk
    intro a ha
    have := newJob_acts ha
    cases this
  · intro ops s op s' hrun ih hs
    cases op with
    | base op => obtain ⟨_, b, h1, rfl⟩ := tstep_base hs; exact (no_skip_step hu ih h1).2
    | late j a => obtain ⟨_, _, _, _, _, _, _, _, rfl⟩ := tstep_late hs; exact ih
    | stop j a =>
      obtain ⟨job, x, left, hj, hx, hw, _, hopen, _, rfl⟩ := tstep_stop hs
      intro k hk
      rcases List.mem_or_eq_of_mem_set hk with hk | rfl
      · exact ih k hk
      · intro b hb
        rcases set_get hb with ⟨_, he⟩ | ⟨_, hb⟩
        · cases he
        · exact ih job (List.mem_of_getElem? hj) b hb

/-- The iterations that begin in any case. -/
def atLeast (x : Action) : Nat :=
  match x.timed with
  | none => x.iters
  | some n => min n x.iters

theorem rpcs_atLeast {cfg : Config} {r : Nat} {E : Nat → Nat} {ops : List TOp} {s : TState}
    (hE : Predicts (fewest cfg) r E) (hu : Unconditional cfg) (h : TimedRun cfg ops s) :
    (cfg.roots.map fun x => E x.2).sum ≤
      rpcsMade s.base r + stateLeftN cfg (countRpc r) E atLeast s.base := by
  have hG : Solves (withIterations atLeast cfg) (countRpc r) E := predicts_iff.1 hE
  have hN : ∀ x, atLeast x ≤ x.iters := by
    intro x
    unfold atLeast
    split <;> omega
  refine trun_induction (s0 := { base := initial cfg }) (P := fun ops s =>
    (cfg.roots.map fun x => E x.2).sum ≤ rpcsMade s.base r + stateLeftN cfg (countRpc r) E atLeast s.base) ?_ ?_ h
  · dsimp only
    rw [initial_leftN hG]
    omega
  · intro ops s op s' hrun ih hs
    have hI := inv_timed hrun
    cases op with
    | base op =>
      obtain ⟨_, b, h1, rfl⟩ := tstep_base hs
      have h3 := stepN_ge hG hN hI h1 (no_skip_step hu (timed_no_skip hu hrun) h1).1
      have h5 := rpcsMade_step r h1
      dsimp only
      omega
    | late j a => obtain ⟨_, _, _, _, _, _, _, _, rfl⟩ := tstep_late hs; exact ih
    | stop j a =>
      obtain ⟨job, x, left, hj, hx, hw, hl, hopen, hf, rfl⟩ := tstep_stop hs
      have h3 := leftN_ended (w := countRpc r) (G := E) (N := atLeast) hI hj hx hw
      have h0 : atLeast x - (x.iters - left) = 0 := by
        obtain ⟨job', x', g1, g2, g3⟩ := late_timed hrun j a hl
        rw [hj] at g1
        cases g1
        rw [hx] at g2
        cases g2
        unfold atLeast
        cases ht : x.timed with
        | none => exact absurd ht g3
        | some n =>
          rw [ht] at hf
          dsimp only [Option.getD_some] at hf ⊢
          omega
      have h7 : (countRpc r).fin = 0 := rfl
      rw [h0, Nat.zero_mul, h7] at h3
      dsimp only
      rw [rpcsMade_ended]
      unfold rpcsMade at ih
      omega

/-! ### Traffic with time limits does not get stuck -/

theorem time_blocked {cfg : Config} {s : TState} {op : Op} (h : tstep cfg s (.base op) = none)
    (ha : inTime cfg s op = true) : step cfg s.base op = none := by
  rw [tstep, if_pos ha] at h
  cases hs : step cfg s.base op with
  | none => rfl
  | some b => rw [hs] at h; cases h

theorem time_open {cfg : Config} {s : TState} (hsen : Sensible cfg) (hI : Inv cfg R s.base)
    (hstuck : TimedStuck cfg s) {j : Nat} {job : Job} (hj : s.base.jobs[j]? = some job)
    (hlive : job.over = false) : ∃ (a : Nat) (x : Action), 0 < openIterations s.base j a x.iters := by
  have hb : ∀ op, tstep cfg s (.base op) = none := fun op => hstuck _ (by simp)
  have hnot : ¬ ∀ x ∈ job.acts, x.ended = true := by
    intro hall
    have := time_blocked (hb (.endJob j)) rfl
    rw [step, hj] at this
    simp [hlive] at this
    obtain ⟨x, hx, hf⟩ := this
    rw [hall x hx] at hf
    cases hf
  obtain ⟨a, y, ha, hye, hbefore⟩ := first_open hnot
  have hlt : a < (cfg.actions job.list).length := by
    rw [← hI.len j job hj]
    exact (List.getElem?_eq_some_iff.1 ha).1
  have hx : (cfg.actions job.list)[a]? = some (cfg.actions job.list)[a] := List.getElem?_eq_getElem hlt
  generalize (cfg.actions job.list)[a] = x at hx
  obtain ⟨hdeps, hpar, hserv⟩ := hsen job.list a x hx
  refine ⟨a, x, ?_⟩
  cases y with
  | finished => cases hye
  | skipped => cases hye
  | waiting =>
    exfalso
    have hready : ready job x = true := by
      unfold ready
      rw [List.all_eq_true]
      intro d hd
      obtain ⟨z, h1, h2⟩ := hbefore d (hdeps d hd)
      rw [h1]
      exact h2
    have hst : startable cfg s.base j a = some (job, x) := by
      unfold startable
      rw [hj]
      dsimp only
      rw [hx]
      dsimp only
      rw [if_pos ⟨ha, hlive, hready⟩]
    cases hd : dropped job x with
    | false =>
      have := time_blocked (hb (.start j a)) rfl
      rw [step, hst] at this
      simp [hd] at this
    | true =>
      have := time_blocked (hb (.skip j a)) rfl
      rw [step, hst] at this
      simp [hd] at this
  | running n =>
    apply Classical.byContradiction
    intro hzero
    cases n with
    | zero =>
      have := time_blocked (hb (.finish j a)) rfl
      rw [step, hj] at this
      dsimp only at this
      rw [hx, ha] at this
      simp at this
      omega
    | succ n =>
      by_cases hal : s.late j a = false ∨ x.iters - (n + 1) < x.timed.getD 0
      · obtain ⟨t, ht⟩ := can_iterate hj hx ha (by omega) hserv
        apply ht
        apply time_blocked (hb (.iterate j a t))
        unfold inTime
        dsimp only
        rw [hj]
        dsimp only
        rw [hx, ha]
        simpa using hal
      · have := hstuck (.stop j a) (by simp)
        rw [tstep, hj] at this
        dsimp only at this
        rw [hx, ha] at this
        dsimp only at this
        rw [if_pos] at this
        · cases this
        · refine ⟨?_, by omega, by omega⟩
          cases hc : s.late j a with
          | true => rfl
          | false => exact absurd (.inl hc) hal

theorem time_over {cfg : Config} {s : TState} {layer : Nat → Nat} (hsen : Sensible cfg)
    (hlay : Layered cfg layer) (hz : ∀ e, cfg.threads e ≠ some 0) (hI : Inv cfg R s.base)
    (hstuck : TimedStuck cfg s) : TrafficOver s.base := by
  have hb : ∀ op, tstep cfg s (.base op) = none := fun op => hstuck _ (by simp)
  refine all_over hlay hI ?_ (fun j job hj ho => time_open hsen hI hstuck hj ho)
    (fun c r hc hq => queued_waits hI hz (fun c => time_blocked (hb _) rfl) hc hq)
  intro c r hc
  exact ⟨fun h => deliver_possible hc h (time_blocked (hb _) rfl),
    fun h => complete_possible hc h (time_blocked (hb _) rfl)⟩

/-! ### Bounds -/

theorem counts_iff {cfg : Config} {D : Nat → Nat} : CountsSteps cfg D ↔ Solves cfg countSteps D := by
  unfold CountsSteps Solves
  refine forall_congr' fun l => ?_
  have : ((cfg.actions l).map fun x => 2 + x.iters * (1 + match x.work with
      | .rpc q fan => fan * (match cfg.handler q with
          | none => 2
          | some l' => 3 + D l')
      | .list l' => D l'
      | .other => 0)) = ((cfg.actions l).map fun x => actLeft cfg countSteps D x .waiting) := by
    apply List.map_congr_left
    intro x _
    unfold actLeft iterWorth callLeft countSteps
    dsimp only
    cases x.work with
    | rpc q fan =>
      cases hh : cfg.handler q with
      | none =>
        simp only [hh]
        generalize x.iters * _ = A
        omega
      | some l' =>
        simp only [hh]
        have : 3 + D l' = 0 + (1 + (1 + D l') + 1) := by omega
        rw [this]
        generalize x.iters * _ = A
        omega
    | list l' =>
      dsimp only
      generalize x.iters * _ = A
      omega
    | other =>
      dsimp only
      omega
  exact ⟨fun h => h.trans (congrArg (1 + List.sum ·) this), fun h => h.trans (congrArg (1 + List.sum ·) this).symm⟩

theorem levels_with {cfg : Config} {level : Nat → Nat} (N : Action → Nat) (h : Levels cfg level) :
    Levels (withIterations N cfg) level := by
  rintro l l' ⟨x, hx, hw⟩
  obtain ⟨y, hy, rfl⟩ := List.mem_map.1 hx
  exact h l l' ⟨y, hy, hw⟩

/-- No action begins more iterations than it has. -/
theorem begins_iters {cfg : Config} {ops : List TOp} {s : TState} (h : TimedRun cfg ops s) :
    BeginsAtMost cfg (·.iters) ops s := by
  intro j job a x hj hx
  have hlt : a < job.acts.length := by
    rw [(inv_timed h).len j job hj]
    exact (List.getElem?_eq_some_iff.1 hx).1
  exact ((begun_timed h j).2 job hj a x _ hx (List.getElem?_eq_getElem hlt)).1

theorem begins_limited {cfg : Config} {n : Nat} {ops : List TOp} {s : TState} (h : TimedRun cfg ops s)
    (hl : LimitedTo cfg n ops s) :
    BeginsAtMost cfg (fun x => match x.timed with | none => x.iters | some _ => min n x.iters) ops s := by
  intro j job a x hj hx
  have h1 : timedIterations ops j a ≤ x.iters := begins_iters h j job a x hj hx
  dsimp only
  cases ht : x.timed with
  | none => exact h1
  | some m =>
    have := hl j job a x hj hx (by rw [ht]; simp)
    exact Nat.le_min.2 ⟨this, h1⟩

theorem with_iters (cfg : Config) : withIterations (·.iters) cfg = cfg := by
  unfold withIterations
  congr 1
  funext l
  exact List.map_id _

/-! ### Iterations after the time limit -/

theorem late_of_mem {cfg : Config} {ops : List TOp} {s : TState} {j a : Nat} (h : TimedRun cfg ops s)
    (hm : .late j a ∈ ops) : s.late j a = true := by
  revert hm
  refine trun_induction (s0 := { base := initial cfg }) (P := fun ops s => .late j a ∈ ops → s.late j a = true)
    (by simp) ?_ h
  intro ops s op s' hrun ih hs hm
  rcases List.mem_append.1 hm with hm | hm
  · exact late_stays hs (ih hm)
  · simp at hm
    subst hm
    obtain ⟨job, x, left, g1, g2, g3, g4, g5, rfl⟩ := tstep_late hs
    simp

theorem late_iterations {cfg : Config} {ops ops' : List TOp} {s1 s : TState} {j a : Nat} {job : Job} {x : Action}
    (h1 : TimedRun cfg ops s1) (hl : s1.late j a = true) (h : trun cfg s1 ops' = some s)
    (hj : s1.base.jobs[j]? = some job) (hx : (cfg.actions job.list)[a]? = some x) :
    timedIterations (ops ++ ops') j a ≤ max (timedIterations ops j a) (x.timed.getD 0) := by
  refine (trun_induction (P := fun ops' s => s.late j a = true ∧
    (∃ k, s.base.jobs[j]? = some k ∧ k.list = job.list) ∧
    timedIterations (ops ++ ops') j a ≤ max (timedIterations ops j a) (x.timed.getD 0)) ?_ ?_ h).2.2
  · refine ⟨hl, ⟨job, hj, rfl⟩, ?_⟩
    rw [List.append_nil]
    omega
  · intro ops' s op s' hrun ⟨ih1, ⟨k, ih2, ih3⟩, ih4⟩ hs
    obtain ⟨k', g1, g2⟩ := list_tstep hs ih2
    refine ⟨late_stays hs ih1, ⟨k', g1, g2.trans ih3⟩, ?_⟩
    rw [← List.append_assoc, timed_snoc]
    dsimp only
    cases op with
    | late i b => exact ih4
    | stop i b => exact ih4
    | base op =>
      cases op with
      | iterate i b t =>
        simp only [tbegins, opBegins]
        split
        · next he =>
          obtain ⟨rfl, rfl⟩ := he
          obtain ⟨hin, b', hb, _⟩ := tstep_base hs
          obtain ⟨k2, x2, left, e1, e2, e3, _⟩ := step_iterate hb
          rw [ih2] at e1
          cases e1
          rw [ih3] at e2
          rw [hx] at e2
          cases e2
          unfold inTime at hin
          dsimp only at hin
          rw [ih2] at hin
          dsimp only at hin
          rw [ih3, hx, e3] at hin
          simp [ih1] at hin
          have hall : TimedRun cfg (ops ++ ops') s := by
            unfold TimedRun at h1 ⊢
            rw [trun_append, h1]
            exact hrun
          have := ((begun_timed hall i).2 k ih2 b x _ (by rw [ih3]; exact hx) e3).2.2 _ rfl
          omega
        · exact ih4
      | _ => exact ih4

end Distbench.Traffic
