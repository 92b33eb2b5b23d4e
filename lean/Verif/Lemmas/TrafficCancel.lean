import Verif.Lemmas.TrafficLive
import Verif.Spec.TrafficCancel

/-! Lemmas for Props/TrafficCancel.lean. -/

namespace Distbench.Traffic
open Spec

/-! ### Runs -/

theorem crun_append (cfg : Config) (s : CState) (a b : List COp) :
    crun cfg s (a ++ b) = match crun cfg s a with
      | none => none
      | some s' => crun cfg s' b := by
  induction a generalizing s with
  | nil => rfl
  | cons op a ih =>
    rw [List.cons_append, crun, crun]
    cases cstep cfg s op with
    | none => rfl
    | some s' => exact ih s'

theorem csnoc {cfg : Config} {s0 s : CState} {ops : List COp} {op : COp} :
    crun cfg s0 (ops ++ [op]) = some s ↔ ∃ s1, crun cfg s0 ops = some s1 ∧ cstep cfg s1 op = some s := by
  rw [crun_append]
  cases h : crun cfg s0 ops with
  | none => simp
  | some s1 =>
    dsimp only
    rw [crun]
    cases h1 : cstep cfg s1 op with
    | none => simp [h1]
    | some s2 => simp [crun, h1]

theorem crun_induction {cfg : Config} {s0 : CState} {P : List COp → CState → Prop} (h0 : P [] s0)
    (h1 : ∀ ops s op s', crun cfg s0 ops = some s → P ops s → cstep cfg s op = some s' →
      P (ops ++ [op]) s')
    {ops : List COp} {s : CState} (h : crun cfg s0 ops = some s) : P ops s := by
  have : ∀ r : List COp, ∀ s, crun cfg s0 r.reverse = some s → P r.reverse s := by
    intro r
    induction r with
    | nil =>
      intro s hs
      have hs : some s0 = some s := hs
      cases hs
      exact h0
    | cons op r ih =>
      intro s hs
      rw [List.reverse_cons] at hs ⊢
      obtain ⟨s1, h2, h3⟩ := csnoc.1 hs
      exact h1 _ _ _ _ h2 (ih s1 h2) h3
  have h' := this ops.reverse s
  rw [List.reverse_reverse] at h'
  exact h' h

/-! ### Steps -/

theorem cstep_base {cfg : Config} {s s' : CState} {op : Op} (h : cstep cfg s (.base op) = some s') :
    allowed cfg s op = true ∧ ∃ b, step cfg s.base op = some b ∧ s' = { s with base := b } := by
  rw [cstep] at h
  split at h
  · next ha =>
    rw [Option.map_eq_some_iff] at h
    obtain ⟨b, h1, h2⟩ := h
    exact ⟨ha, b, h1, h2.symm⟩
  · cases h

theorem cstep_cancel {cfg : Config} {s s' : CState} {e : Nat} (h : cstep cfg s (.cancel e) = some s') :
    s.cancelled e = false ∧ s' = { s with cancelled := fun i => i == e || s.cancelled i } := by
  rw [cstep] at h
  split at h
  · cases h
  · next hc => cases h; exact ⟨by simpa using hc, rfl⟩

theorem cstep_expire {cfg : Config} {s s' : CState} {e : Nat} (h : cstep cfg s (.expire e) = some s') :
    s.refusing e = false ∧ s' = { s with refusing := fun i => i == e || s.refusing i } := by
  rw [cstep] at h
  split at h
  · next hc => cases h; simp at hc; exact ⟨hc.2, rfl⟩
  · cases h

theorem cstep_stop {cfg : Config} {s s' : CState} {j a : Nat} (h : cstep cfg s (.stop j a) = some s') :
    ∃ job x left, s.base.jobs[j]? = some job ∧ (cfg.actions job.list)[a]? = some x ∧
      job.acts[a]? = some (.running left) ∧ s.cancelled job.engine = true ∧
      openIterations s.base j a x.iters = 0 ∧
      s' = { s with base :=
        { jobs := s.base.jobs.set j { job with acts := job.acts.set a .finished }
          calls := if job.early = some a then answer s.base.calls job.parent else s.base.calls } } := by
  rw [cstep] at h
  split at h
  · cases h
  · next job hj =>
    split at h
    · next x left hx hl =>
      split at h
      · next hg => cases h; exact ⟨job, x, left, hj, hx, hl, hg.1, hg.2.1, rfl⟩
      · cases h
    · cases h

theorem cstep_leave {cfg : Config} {s s' : CState} {j : Nat} (h : cstep cfg s (.leave j) = some s') :
    ∃ job, s.base.jobs[j]? = some job ∧ s.cancelled job.engine = true ∧
      (∃ x ∈ job.acts, x = .waiting) ∧
      s' = { s with base :=
        { jobs := s.base.jobs.set j
            { job with acts := job.acts.map fun x => if x = .waiting then .skipped else x }
          calls := s.base.calls } } := by
  rw [cstep] at h
  split at h
  · cases h
  · next job hj =>
    split at h
    · next hg =>
      cases h
      refine ⟨job, hj, hg.1, ?_, rfl⟩
      have := hg.2
      rw [List.any_eq_true] at this
      obtain ⟨x, h1, h2⟩ := this
      exact ⟨x, h1, by simpa using h2⟩
    · cases h

theorem cstep_refuse {cfg : Config} {s s' : CState} {c : Nat} (h : cstep cfg s (.refuse c) = some s') :
    ∃ r, s.base.calls[c]? = some r ∧ s.refusing r.target = true ∧ r.stage = .sent ∧
      s' = { s with base :=
        { jobs := s.base.jobs
          calls := s.base.calls.set c { r with stage := .answered } } } := by
  rw [cstep] at h
  split at h
  · cases h
  · next r hr =>
    split at h
    · next hg => cases h; exact ⟨r, hr, hg.1, hg.2, rfl⟩
    · cases h

/-- As long as nothing is cancelled, the traffic is that of Model/Traffic.lean. -/
theorem allowed_free (cfg : Config) (b : State) (op : Op) : allowed cfg { base := b } op = true := by
  unfold allowed
  split
  · split
    · rfl
    · split <;> rfl
  · split <;> rfl
  · rfl

theorem lift_run {cfg : Config} {b b' : State} {ops : List Op} (h : run cfg b ops = some b') :
    crun cfg { base := b } (ops.map .base) = some { base := b' } := by
  induction ops generalizing b with
  | nil =>
    have h : some b = some b' := h
    cases h
    rfl
  | cons op ops ih =>
    rw [run] at h
    rw [List.map_cons, crun, cstep, if_pos (allowed_free cfg b op)]
    dsimp only
    cases hs : step cfg b op with
    | none => rw [hs] at h; cases h
    | some b1 =>
      rw [hs] at h
      exact ih h

/-! ### The invariant -/

theorem inv_refuse {cfg : Config} {s : State} {c : Nat} {r : Call} (h : Inv cfg (fun _ => True) s)
    (hr : s.calls[c]? = some r) (hst : r.stage = .sent) :
    Inv cfg (fun _ => True)
      { jobs := s.jobs
        calls := s.calls.set c { r with stage := .answered } } := by
  obtain ⟨may, len, over, early, left, parent, unique, handled, unhandled, made, nested⟩ := h
  refine ⟨may, len, over, early, left, ?_, unique, ?_, ?_, ?_, nested⟩
  · grind
  · grind
  · grind
  · grind

theorem leave_get {acts : List Act} {a : Nat} {y : Act}
    (h : (acts.map fun x => if x = .waiting then .skipped else x)[a]? = some y) :
    (acts[a]? = some .waiting ∧ y = .skipped) ∨ (acts[a]? = some y ∧ y ≠ .waiting) := by
  rw [List.getElem?_map, Option.map_eq_some_iff] at h
  obtain ⟨z, h1, h2⟩ := h
  split at h2
  · next hz => subst hz; exact .inl ⟨h1, h2.symm⟩
  · next hz => subst h2; exact .inr ⟨h1, hz⟩

theorem leave_of {acts : List Act} {a : Nat} {y : Act} (h : acts[a]? = some y) (hy : y ≠ .waiting) :
    (acts.map fun x => if x = .waiting then .skipped else x)[a]? = some y := by
  rw [List.getElem?_map, h]
  simp [hy]

theorem inv_leave {cfg : Config} {s : State} {j : Nat} {job : Job} (h : Inv cfg R s)
    (hj : s.jobs[j]? = some job) :
    Inv cfg R
      { jobs := s.jobs.set j
          { job with acts := job.acts.map fun x => if x = .waiting then .skipped else x }
        calls := s.calls } := by
  apply inv_set (job.acts.map fun x => if x = .waiting then .skipped else x) job.early job.over _ h hj
  · simp
  · intro ho a x hx
    rcases leave_get hx with ⟨h1, rfl⟩ | ⟨h1, _⟩
    · rfl
    · exact h.over j job hj ho a x h1
  · intro a ha
    obtain ⟨x, h1, h2⟩ := h.early j job a hj ha
    exact ⟨x, leave_of h1 h2, h2⟩
  · intro a n x ha hx
    rcases leave_get ha with ⟨_, h1⟩ | ⟨h1, _⟩
    · cases h1
    · exact h.left j job a n x hj h1 hx
  · exact id
  · intro a ha
    exact leave_of ha (by simp)
  · intro a n ha
    exact .inl ⟨n, leave_of ha (by simp)⟩
  · left
    refine ⟨rfl, ?_⟩
    unfold Unanswered
    dsimp only
    refine and_congr Iff.rfl ?_
    constructor
    · intro hall b y hb hy
      obtain ⟨x, h1, h2⟩ := h.early j job b hj hb
      rw [hy] at h1
      cases h1
      exact hall b y hb (leave_of hy h2)
    · intro hall b y hb hy
      rcases leave_get hy with ⟨h1, _⟩ | ⟨h1, _⟩
      · obtain ⟨x, g1, g2⟩ := h.early j job b hj hb
        rw [h1] at g1
        cases g1
        exact absurd rfl g2
      · exact hall b y hb h1

theorem inv_cstep {cfg : Config} {s s' : CState} {op : COp} (h : Inv cfg (fun _ => True) s.base)
    (hs : cstep cfg s op = some s') : Inv cfg (fun _ => True) s'.base := by
  cases op with
  | base op =>
    obtain ⟨_, b, h1, rfl⟩ := cstep_base hs
    exact inv_step h h1
  | cancel e => obtain ⟨_, rfl⟩ := cstep_cancel hs; exact h
  | expire e => obtain ⟨_, rfl⟩ := cstep_expire hs; exact h
  | stop j a =>
    obtain ⟨job, x, left, hj, hx, hw, _, hopen, rfl⟩ := cstep_stop hs
    exact inv_ended h hj hx hw hopen
  | leave j =>
    obtain ⟨job, hj, _, _, rfl⟩ := cstep_leave hs
    exact inv_leave h hj
  | refuse c =>
    obtain ⟨r, hr, _, hst, rfl⟩ := cstep_refuse hs
    exact inv_refuse h hr hst

theorem inv_crun {cfg : Config} {s0 s : CState} {ops : List COp} (h0 : Inv cfg (fun _ => True) s0.base)
    (h : crun cfg s0 ops = some s) : Inv cfg (fun _ => True) s.base :=
  crun_induction (P := fun _ s => Inv cfg (fun _ => True) s.base) h0
    (fun _ _ _ _ _ hI hs => inv_cstep hI hs) h

theorem inv_cancel {cfg : Config} {s : CState} {ops : List COp} (h : CancelRun cfg ops s) :
    Inv cfg (fun _ => True) s.base :=
  inv_crun (inv_initial cfg) h

theorem flags_step {cfg : Config} {s s' : CState} {op : COp} (hs : cstep cfg s op = some s') :
    (∀ e, s.cancelled e = true → s'.cancelled e = true) ∧
      ∀ e, s.refusing e = true → s'.refusing e = true := by
  cases op with
  | base op => obtain ⟨_, b, _, rfl⟩ := cstep_base hs; exact ⟨fun _ => id, fun _ => id⟩
  | cancel e =>
    obtain ⟨_, rfl⟩ := cstep_cancel hs
    exact ⟨fun i hi => by simp [hi], fun _ => id⟩
  | expire e =>
    obtain ⟨_, rfl⟩ := cstep_expire hs
    exact ⟨fun _ => id, fun i hi => by simp [hi]⟩
  | stop j a => obtain ⟨job, x, left, _, _, _, _, _, rfl⟩ := cstep_stop hs; exact ⟨fun _ => id, fun _ => id⟩
  | leave j => obtain ⟨job, _, _, _, rfl⟩ := cstep_leave hs; exact ⟨fun _ => id, fun _ => id⟩
  | refuse c => obtain ⟨r, _, _, _, rfl⟩ := cstep_refuse hs; exact ⟨fun _ => id, fun _ => id⟩

/-! ### Iterations that begin on a cancelled engine -/

/-- How many iterations an action may still begin. -/
def budget (x : Action) : Act → Nat
  | .waiting => x.parallel
  | .running left => x.parallel - (x.iters - left)
  | _ => 0

theorem budget_le (x : Action) (y : Act) : budget x y ≤ x.parallel := by
  cases y <;> simp [budget]

/-- What a step does to the actions of a run of a list. -/
inductive Moves (cfg : Config) (s : CState) (op : COp) (j a : Nat) (job : Job) : Act → Act → Prop where
  | same {y : Act} : (∀ t, op ≠ .base (.iterate j a t)) → Moves cfg s op j a job y y
  | start {x : Action} : (∀ t, op ≠ .base (.iterate j a t)) → (cfg.actions job.list)[a]? = some x →
      Moves cfg s op j a job .waiting (.running x.iters)
  | iterate {left : Nat} : allowed cfg s (.iterate j a []) = true →
      Moves cfg s op j a job (.running (left + 1)) (.running left)
  | ended {y z : Act} : (∀ t, op ≠ .base (.iterate j a t)) → z.ended = true → Moves cfg s op j a job y z

theorem jobs_set {jobs : List Job} {i j : Nat} {k k' : Job} (h : (jobs.set i k)[j]? = some k') :
    (i = j ∧ k' = k ∧ i < jobs.length) ∨ (i ≠ j ∧ jobs[j]? = some k') := by
  by_cases he : i = j
  · subst he
    have hlt : i < jobs.length := by
      have := (List.getElem?_eq_some_iff.1 h).1
      simpa using this
    simp [hlt] at h
    exact .inl ⟨rfl, h.symm, hlt⟩
  · rw [List.getElem?_set_ne he] at h
    exact .inr ⟨he, h⟩

/-- A run of a list after a step. -/
def JobStep (cfg : Config) (s : CState) (op : COp) (j : Nat) (job' : Job) : Prop :=
  (s.base.jobs[j]? = none ∧ ∀ (a : Nat) (y : Act), job'.acts[a]? = some y → y = .waiting) ∨
  ∃ job, s.base.jobs[j]? = some job ∧ job'.list = job.list ∧ job'.engine = job.engine ∧
    ∀ (a : Nat) (y : Act), job'.acts[a]? = some y → ∃ y0, job.acts[a]? = some y0 ∧ Moves cfg s op j a job y0 y

theorem jobStep_same {cfg : Config} {s : CState} {op : COp} {j : Nat} {job : Job}
    (hj : s.base.jobs[j]? = some job) (hop : ∀ a t, op ≠ .base (.iterate j a t)) : JobStep cfg s op j job :=
  .inr ⟨job, hj, rfl, rfl, fun a y hy => ⟨y, hy, .same (hop a)⟩⟩

theorem jobStep_new {cfg : Config} {s : CState} {op : COp} {jobs : List Job} {n k : Job} {j : Nat}
    (hlen : jobs.length = s.base.jobs.length) (hn : ∀ (a : Nat) (y : Act), n.acts[a]? = some y → y = .waiting)
    (hold : ∀ k, jobs[j]? = some k → JobStep cfg s op j k) (h : (jobs ++ [n])[j]? = some k) :
    JobStep cfg s op j k := by
  rcases jobs_append h with h | ⟨h1, rfl⟩
  · exact hold k h
  · left
    refine ⟨?_, hn⟩
    rw [List.getElem?_eq_none]
    omega

theorem cstep_job {cfg : Config} {s s' : CState} {op : COp} {j : Nat} {job' : Job}
    (hs : cstep cfg s op = some s') (hj' : s'.base.jobs[j]? = some job') : JobStep cfg s op j job' := by
  cases op with
  | base op =>
    obtain ⟨hal, b, h1, rfl⟩ := cstep_base hs
    dsimp only at hj'
    cases op with
    | start i b =>
      obtain ⟨job, x, hj, hx, hw, ho, hready, hd, rfl⟩ := step_start h1
      rcases jobs_set hj' with ⟨rfl, rfl, _⟩ | ⟨_, h⟩
      · refine .inr ⟨job, hj, rfl, rfl, ?_⟩
        intro a y hy
        rcases set_get hy with ⟨rfl, rfl⟩ | ⟨_, hy⟩
        · exact ⟨_, hw, .start (by simp) hx⟩
        · exact ⟨y, hy, .same (by simp)⟩
      · exact jobStep_same h (by simp)
    | skip i b =>
      obtain ⟨job, x, hj, hx, hw, ho, hready, hd, rfl⟩ := step_skip h1
      rcases jobs_set hj' with ⟨rfl, rfl, _⟩ | ⟨_, h⟩
      · refine .inr ⟨job, hj, rfl, rfl, ?_⟩
        intro a y hy
        rcases set_get hy with ⟨rfl, rfl⟩ | ⟨_, hy⟩
        · exact ⟨_, hw, .ended (by simp) rfl⟩
        · exact ⟨y, hy, .same (by simp)⟩
      · exact jobStep_same h (by simp)
    | iterate i b t =>
      obtain ⟨job, x, left, hj, hx, hw, hcase⟩ := step_iterate h1
      have hset : ∀ k, (s.base.jobs.set i { job with acts := job.acts.set b (.running left) })[j]? = some k →
          JobStep cfg s (.base (.iterate i b t)) j k := by
        intro k hk
        rcases jobs_set hk with ⟨rfl, rfl, _⟩ | ⟨hne, h⟩
        · refine .inr ⟨job, hj, rfl, rfl, ?_⟩
          intro a y hy
          rcases set_get hy with ⟨rfl, rfl⟩ | ⟨hne, hy⟩
          · exact ⟨_, hw, .iterate hal⟩
          · exact ⟨y, hy, .same (by
              intro t' ht
              simp at ht
              exact hne ht.1)⟩
        · exact jobStep_same h (by
            intro a t' ht
            simp at ht
            exact hne ht.1)
      rcases hcase with ⟨q, hq, ht, rfl⟩ | ⟨l, hl, rfl⟩ | ⟨hl, rfl⟩
      · exact hset _ hj'
      · exact jobStep_new (by simp) (fun a y => newJob_acts) hset hj'
      · exact hset _ hj'
    | finish i b =>
      obtain ⟨job, x, hj, hx, hw, hopen, rfl⟩ := step_finish h1
      rcases jobs_set hj' with ⟨rfl, rfl, _⟩ | ⟨_, h⟩
      · refine .inr ⟨job, hj, rfl, rfl, ?_⟩
        intro a y hy
        rcases set_get hy with ⟨rfl, rfl⟩ | ⟨_, hy⟩
        · exact ⟨_, hw, .ended (by simp) rfl⟩
        · exact ⟨y, hy, .same (by simp)⟩
      · exact jobStep_same h (by simp)
    | deliver c =>
      obtain ⟨r, hr, hst, rfl⟩ := step_deliver h1
      exact jobStep_same hj' (by simp)
    | dispatch c =>
      obtain ⟨r, l, hr, hl, hst, hfree, rfl⟩ := step_dispatch h1
      exact jobStep_new rfl (fun a y => newJob_acts) (fun k hk => jobStep_same hk (by simp)) hj'
    | endJob i =>
      obtain ⟨job, hj, ho, hall, rfl⟩ := step_endJob h1
      rcases jobs_set hj' with ⟨rfl, rfl, _⟩ | ⟨_, h⟩
      · exact .inr ⟨job, hj, rfl, rfl, fun a y hy => ⟨y, hy, .same (by simp)⟩⟩
      · exact jobStep_same h (by simp)
    | complete c =>
      obtain ⟨r, hr, hst, rfl⟩ := step_complete h1
      exact jobStep_same hj' (by simp)
  | cancel e => obtain ⟨_, rfl⟩ := cstep_cancel hs; exact jobStep_same hj' (by simp)
  | expire e => obtain ⟨_, rfl⟩ := cstep_expire hs; exact jobStep_same hj' (by simp)
  | stop i b =>
    obtain ⟨job, x, left, hj, hx, hw, _, hopen, rfl⟩ := cstep_stop hs
    rcases jobs_set hj' with ⟨rfl, rfl, _⟩ | ⟨_, h⟩
    · refine .inr ⟨job, hj, rfl, rfl, ?_⟩
      intro a y hy
      rcases set_get hy with ⟨rfl, rfl⟩ | ⟨_, hy⟩
      · exact ⟨_, hw, .ended (by simp) rfl⟩
      · exact ⟨y, hy, .same (by simp)⟩
    · exact jobStep_same h (by simp)
  | leave i =>
    obtain ⟨job, hj, _, _, rfl⟩ := cstep_leave hs
    rcases jobs_set hj' with ⟨rfl, rfl, _⟩ | ⟨_, h⟩
    · refine .inr ⟨job, hj, rfl, rfl, ?_⟩
      intro a y hy
      rcases leave_get hy with ⟨h1, rfl⟩ | ⟨h1, _⟩
      · exact ⟨_, h1, .ended (by simp) rfl⟩
      · exact ⟨y, h1, .same (by simp)⟩
    · exact jobStep_same h (by simp)
  | refuse c => obtain ⟨r, _, _, _, rfl⟩ := cstep_refuse hs; exact jobStep_same hj' (by simp)

theorem jobs_grow {cfg : Config} {s s' : CState} {op : COp} (hs : cstep cfg s op = some s') :
    s.base.jobs.length ≤ s'.base.jobs.length := by
  cases op with
  | base op =>
    obtain ⟨_, b, h1, rfl⟩ := cstep_base hs
    cases op with
    | start j a => obtain ⟨job, x, hj, hx, hw, ho, hready, hd, rfl⟩ := step_start h1; simp
    | skip j a => obtain ⟨job, x, hj, hx, hw, ho, hready, hd, rfl⟩ := step_skip h1; simp
    | iterate j a t =>
      obtain ⟨job, x, left, hj, hx, hw, hcase⟩ := step_iterate h1
      rcases hcase with ⟨q, hq, ht, rfl⟩ | ⟨l, hl, rfl⟩ | ⟨hl, rfl⟩ <;> simp
    | finish j a => obtain ⟨job, x, hj, hx, hw, hopen, rfl⟩ := step_finish h1; simp
    | deliver c => obtain ⟨r, hr, hst, rfl⟩ := step_deliver h1; simp
    | dispatch c => obtain ⟨r, l, hr, hl, hst, hfree, rfl⟩ := step_dispatch h1; simp
    | endJob j => obtain ⟨job, hj, ho, hall, rfl⟩ := step_endJob h1; simp
    | complete c => obtain ⟨r, hr, hst, rfl⟩ := step_complete h1; simp
  | cancel e => obtain ⟨_, rfl⟩ := cstep_cancel hs; simp
  | expire e => obtain ⟨_, rfl⟩ := cstep_expire hs; simp
  | stop j a => obtain ⟨job, x, left, _, _, _, _, _, rfl⟩ := cstep_stop hs; simp
  | leave j => obtain ⟨job, _, _, _, rfl⟩ := cstep_leave hs; simp
  | refuse c => obtain ⟨r, _, _, _, rfl⟩ := cstep_refuse hs; simp

/-- Whether an iteration of the action begins. -/
def begins (op : COp) (j a : Nat) : Nat := iterationsBegun [op] j a

theorem begins_zero {op : COp} {j a : Nat} (h : ∀ t, op ≠ .base (.iterate j a t)) : begins op j a = 0 := by
  unfold begins iterationsBegun
  rw [List.countP_eq_zero]
  intro o ho
  simp only [List.mem_singleton] at ho
  subst ho
  split
  · next i b t =>
    intro hh
    simp at hh
    exact h t (by rw [hh.1, hh.2])
  · simp

theorem begins_le (op : COp) (j a : Nat) : begins op j a ≤ 1 := by
  unfold begins iterationsBegun
  exact Nat.le_trans List.countP_le_length (by simp)

theorem begun_snoc (ops : List COp) (op : COp) (j a : Nat) :
    iterationsBegun (ops ++ [op]) j a = iterationsBegun ops j a + begins op j a := by
  unfold begins iterationsBegun
  rw [List.countP_append]

theorem moves_budget {cfg : Config} {s : CState} {op : COp} {j a : Nat} {job : Job} {x : Action} {y z : Act}
    (hI : Inv cfg (fun _ => True) s.base) (hj : s.base.jobs[j]? = some job)
    (hx : (cfg.actions job.list)[a]? = some x) (hc : s.cancelled job.engine = true)
    (hy : job.acts[a]? = some y) (h : Moves cfg s op j a job y z) :
    begins op j a + budget x z ≤ budget x y := by
  cases h with
  | same h => rw [begins_zero h]; omega
  | start h hx' =>
    rw [hx] at hx'
    cases hx'
    rw [begins_zero h]
    simp [budget]
  | iterate hal =>
    rename_i left
    have h1 := begins_le op j a
    have h2 := hI.left j job a _ x hj hy hx
    unfold allowed at hal
    dsimp only at hal
    rw [hj] at hal
    dsimp only at hal
    rw [hx, hy] at hal
    simp [hc] at hal
    simp only [budget]
    omega
  | ended h hz =>
    rw [begins_zero h]
    cases z with
    | waiting => cases hz
    | running n => cases hz
    | finished => simp [budget]
    | skipped => simp [budget]

theorem begun_budget {cfg : Config} {s0 s : CState} {ops : List COp} (hI : Inv cfg (fun _ => True) s0.base)
    (h : crun cfg s0 ops = some s) :
    (∀ e, s0.cancelled e = true → s.cancelled e = true) ∧
    (∀ j a, s.base.jobs[j]? = none → iterationsBegun ops j a = 0) ∧
    ∀ (j a : Nat) (job : Job) (x : Action) (y : Act), s.base.jobs[j]? = some job →
      s0.cancelled job.engine = true → (cfg.actions job.list)[a]? = some x → job.acts[a]? = some y →
      iterationsBegun ops j a + budget x y ≤ x.parallel ∧
      ∀ (job0 : Job) (y0 : Act), s0.base.jobs[j]? = some job0 → job0.acts[a]? = some y0 →
        iterationsBegun ops j a + budget x y ≤ budget x y0 := by
  refine crun_induction (P := fun ops s =>
    (∀ e, s0.cancelled e = true → s.cancelled e = true) ∧
    (∀ j a, s.base.jobs[j]? = none → iterationsBegun ops j a = 0) ∧
    ∀ (j a : Nat) (job : Job) (x : Action) (y : Act), s.base.jobs[j]? = some job →
      s0.cancelled job.engine = true → (cfg.actions job.list)[a]? = some x → job.acts[a]? = some y →
      iterationsBegun ops j a + budget x y ≤ x.parallel ∧
      ∀ (job0 : Job) (y0 : Act), s0.base.jobs[j]? = some job0 → job0.acts[a]? = some y0 →
        iterationsBegun ops j a + budget x y ≤ budget x y0) ?_ ?_ h
  · refine ⟨fun _ => id, fun _ _ _ => rfl, ?_⟩
    intro j a job x y hj _ _ hy
    have h0 : iterationsBegun [] j a = 0 := rfl
    rw [h0]
    refine ⟨by have := budget_le x y; omega, ?_⟩
    intro job0 y0 hj0 hy0
    rw [hj] at hj0
    cases hj0
    rw [hy] at hy0
    cases hy0
    omega
  · intro ops s op s' hrun ⟨hc, hnone, hsome⟩ hs
    have hIs := inv_crun hI hrun
    have hstay : ∀ (j : Nat), s'.base.jobs[j]? = none → s.base.jobs[j]? = none := by
      intro j hj
      apply Classical.byContradiction
      intro hne
      have hlt : j < s.base.jobs.length := by
        apply Classical.byContradiction
        intro hge
        exact hne (List.getElem?_eq_none (by omega))
      have hge : s'.base.jobs.length ≤ j := by
        apply Classical.byContradiction
        intro hlt'
        rw [List.getElem?_eq_getElem (by omega)] at hj
        cases hj
      have := jobs_grow hs
      omega
    have hno : ∀ (j a : Nat), s.base.jobs[j]? = none → begins op j a = 0 := by
      intro j a hj
      apply begins_zero
      rintro t rfl
      obtain ⟨_, b, h1, rfl⟩ := cstep_base hs
      obtain ⟨job, x, left, hj', _⟩ := step_iterate h1
      rw [hj] at hj'
      cases hj'
    refine ⟨fun e he => (flags_step hs).1 e (hc e he), ?_, ?_⟩
    · intro j a hj
      have := hstay j hj
      rw [begun_snoc, hnone j a this, hno j a this]
    · intro j a job' x y hj' he hx hy
      rw [begun_snoc]
      rcases cstep_job hs hj' with ⟨hn, hw⟩ | ⟨job, hj, hl, hen, hm⟩
      · rw [hnone j a hn, hno j a hn]
        refine ⟨by have := budget_le x y; omega, ?_⟩
        intro job0 y0 hj0 hy0
        exfalso
        have hmono : ∀ {ops : List COp} {s : CState}, crun cfg s0 ops = some s → s.base.jobs[j]? ≠ none := by
          intro ops s hr
          refine crun_induction (P := fun _ s => s.base.jobs[j]? ≠ none) (by rw [hj0]; simp) ?_ hr
          intro ops s op s' _ hne hs' hnone'
          apply hne
          have hlen := jobs_grow hs'
          rw [List.getElem?_eq_none_iff] at hnone' ⊢
          omega
        exact hmono hrun hn
      · obtain ⟨y1, hy1, hmv⟩ := hm a y hy
        rw [hen] at he
        rw [hl] at hx
        have h1 := moves_budget hIs hj hx (hc _ he) hy1 hmv
        obtain ⟨h2, h3⟩ := hsome j a job x y1 hj he hx hy1
        refine ⟨by omega, ?_⟩
        intro job0 y0 hj0 hy0
        have := h3 job0 y0 hj0 hy0
        omega

end Distbench.Traffic
