import Verif.Lemmas.TrafficCancel

/-! Lemmas for Props/TrafficCancel.lean: traffic that is cancelled and refused everywhere ends, and does not
get stuck. -/

namespace Distbench.Traffic
open Spec

def iterDrain (D : Nat → Nat) (x : Action) : Nat :=
  1 + match x.work with
    | .rpc _ fan => fan * 2
    | .list l => D l
    | .other => 0

def actDrain (D : Nat → Nat) (x : Action) : Act → Nat
  | .waiting => 2 + x.parallel * iterDrain D x
  | .running left => 1 + budget x (.running left) * iterDrain D x
  | _ => 0

def jobDrain (cfg : Config) (D : Nat → Nat) (k : Job) : Nat :=
  (if k.over then 0 else 1) + (List.zipWith (actDrain D) (cfg.actions k.list) k.acts).sum

def callDrain (cfg : Config) (D : Nat → Nat) (c : Call) : Nat :=
  match c.stage with
  | .sent => 2
  | .queued => 2 + (match cfg.handler c.rpc with | none => 0 | some l => D l)
  | .running => 1
  | .answered => 1
  | .completed => 0

def stateDrain (cfg : Config) (D : Nat → Nat) (s : State) : Nat :=
  (s.jobs.map (jobDrain cfg D)).sum + (s.calls.map (callDrain cfg D)).sum

theorem drains_iff {cfg : Config} {D : Nat → Nat} :
    Drains cfg D ↔ ∀ l, D l = 1 + ((cfg.actions l).map fun x => actDrain D x .waiting).sum := Iff.rfl

section
variable {cfg : Config} {D : Nat → Nat}

theorem newJob_drain (h : Drains cfg D) (e l : Nat) (p : Parent) :
    jobDrain cfg D (newJob cfg e l p) = D l := by
  rw [drains_iff.1 h l]
  unfold jobDrain newJob
  simp only [Bool.false_eq_true, if_false]
  congr 1
  induction cfg.actions l with
  | nil => rfl
  | cons x xs ih => simp [ih]

theorem acts_drain {job : Job} {a : Nat} {x : Action} {y : Act} (z : Act) (early : Option Nat)
    (hx : (cfg.actions job.list)[a]? = some x) (hy : job.acts[a]? = some y) :
    jobDrain cfg D { job with acts := job.acts.set a z, early := early } + actDrain D x y =
      jobDrain cfg D job + actDrain D x z := by
  have := zip_sum_set (actDrain D) z hx hy
  unfold jobDrain
  dsimp only
  omega

theorem jobs_drain {jobs : List Job} {j : Nat} {job : Job} (k : Job) (h : jobs[j]? = some job) :
    ((jobs.set j k).map (jobDrain cfg D)).sum + jobDrain cfg D job =
      (jobs.map (jobDrain cfg D)).sum + jobDrain cfg D k :=
  sum_set _ _ h

theorem answer_drain (calls : List Call) (p : Parent)
    (h : ∀ c r, p = .call c → calls[c]? = some r → r.stage = .running) :
    ((answer calls p).map (callDrain cfg D)).sum = (calls.map (callDrain cfg D)).sum := by
  unfold answer
  split
  · next c =>
    cases hc : calls[c]? with
    | none =>
      have hn : calls.length ≤ c := by
        apply Classical.byContradiction
        intro hlt
        rw [List.getElem?_eq_getElem (by omega)] at hc
        cases hc
      congr 2
      apply List.ext_getElem?
      intro k
      rw [List.getElem?_modify]
      by_cases hk : c = k
      · subst hk; simp [hc]
      · simp [hk]
    | some r =>
      have hr := h c r rfl hc
      have := sum_modify (callDrain cfg D) (fun r => { r with stage := .answered }) hc
      have e1 : callDrain cfg D { r with stage := .answered } = 1 := rfl
      have e2 : callDrain cfg D r = 1 := by unfold callDrain; rw [hr]
      rw [e1, e2] at this
      exact Nat.add_right_cancel this
  · rfl

/-- An action that has no open iterations ends. -/
theorem drain_ended {s : State} {j a n : Nat} {job : Job} {x : Action} (h : Inv cfg R s)
    (hj : s.jobs[j]? = some job) (hx : (cfg.actions job.list)[a]? = some x)
    (hw : job.acts[a]? = some (.running n)) :
    stateDrain cfg D {
      jobs := s.jobs.set j { job with acts := job.acts.set a .finished }
      calls := if job.early = some a then answer s.calls job.parent else s.calls } + 1 ≤
      stateDrain cfg D s := by
  have h1 := acts_drain (cfg := cfg) (D := D) .finished job.early hx hw
  have h2 := jobs_drain (cfg := cfg) (D := D) { job with acts := job.acts.set a .finished } hj
  have h3 : ((if job.early = some a then answer s.calls job.parent else s.calls).map
      (callDrain cfg D)).sum = (s.calls.map (callDrain cfg D)).sum := by
    split
    · next he =>
      refine answer_drain _ _ (running_of_unanswered h hj ⟨over_false h hj hw, ?_⟩)
      intro b y hb hy
      rw [he] at hb
      cases hb
      rw [hw] at hy
      cases hy
      rfl
    · rfl
  unfold stateDrain
  simp only [actDrain] at h1
  dsimp only at h2 ⊢
  rw [h3]
  omega

theorem drain_start {s s' : State} {j a : Nat} (hs : step cfg s (.start j a) = some s') :
    stateDrain cfg D s' + 1 ≤ stateDrain cfg D s := by
  obtain ⟨job, x, hj, hx, hw, ho, hready, hd, rfl⟩ := step_start hs
  have h1 := acts_drain (cfg := cfg) (D := D) (.running x.iters) (designate cfg job x a) hx hw
  have h2 := jobs_drain (cfg := cfg) (D := D)
    { job with acts := job.acts.set a (.running x.iters), early := designate cfg job x a } hj
  unfold stateDrain
  simp only [actDrain, budget, Nat.sub_self, Nat.sub_zero] at h1
  dsimp only at h2 ⊢
  omega

theorem drain_skip {s s' : State} {j a : Nat} (h : Inv cfg R s) (hs : step cfg s (.skip j a) = some s') :
    stateDrain cfg D s' + 1 ≤ stateDrain cfg D s := by
  obtain ⟨job, x, hj, hx, hw, ho, hready, hd, rfl⟩ := step_skip hs
  have h1 := acts_drain (cfg := cfg) (D := D) .skipped (designate cfg job x a) hx hw
  have h2 := jobs_drain (cfg := cfg) (D := D)
    { job with acts := job.acts.set a .skipped, early := designate cfg job x a } hj
  have h3 : ((if designate cfg job x a = some a then answer s.calls job.parent else s.calls).map
      (callDrain cfg D)).sum = (s.calls.map (callDrain cfg D)).sum := by
    split
    · next hdes => exact answer_drain _ _ (running_of_unanswered h hj (skip_unanswered h hj hw ho hdes))
    · rfl
  unfold stateDrain
  simp only [actDrain] at h1
  dsimp only at h2 ⊢
  rw [h3]
  omega

theorem drain_endJob {s s' : State} {j : Nat} (h : Inv cfg R s) (hs : step cfg s (.endJob j) = some s') :
    stateDrain cfg D s' + 1 ≤ stateDrain cfg D s := by
  obtain ⟨job, hj, ho, hall, rfl⟩ := step_endJob hs
  have h1 : jobDrain cfg D { job with over := true } + 1 = jobDrain cfg D job := by
    unfold jobDrain
    simp [ho]
    omega
  have h2 := jobs_drain (cfg := cfg) (D := D) { job with over := true } hj
  have h3 : ((if job.early = none then answer s.calls job.parent else s.calls).map
      (callDrain cfg D)).sum = (s.calls.map (callDrain cfg D)).sum := by
    split
    · next he =>
      refine answer_drain _ _ (running_of_unanswered h hj ⟨ho, ?_⟩)
      intro b y hb hy
      rw [he] at hb
      cases hb
    · rfl
  unfold stateDrain
  dsimp only at h2 ⊢
  rw [h3]
  omega

theorem drain_call {s : State} {c : Nat} {r r' : Call} (hr : s.calls[c]? = some r)
    (hlt : callDrain cfg D r' + 1 ≤ callDrain cfg D r) :
    stateDrain cfg D { jobs := s.jobs, calls := s.calls.set c r' } + 1 ≤ stateDrain cfg D s := by
  have h2 := sum_set (callDrain cfg D) r' hr
  unfold stateDrain
  dsimp only at h2 ⊢
  omega

theorem drain_dispatch {s s' : State} {c : Nat} (hD : Drains cfg D)
    (hs : step cfg s (.dispatch c) = some s') : stateDrain cfg D s' + 1 ≤ stateDrain cfg D s := by
  obtain ⟨r, l, hr, hl, hst, hfree, rfl⟩ := step_dispatch hs
  have h2 := sum_set (callDrain cfg D) ({ r with stage := .running } : Call) hr
  have h3 := newJob_drain hD r.target l (.call c)
  unfold stateDrain
  have e1 : callDrain cfg D r = 2 + D l := by unfold callDrain; rw [hst]; simp only [hl]
  have e2 : callDrain cfg D { r with stage := .running } = 1 := rfl
  rw [e1, e2] at h2
  dsimp only
  rw [List.map_append, List.sum_append]
  simp only [List.map_cons, List.map_nil, List.sum_cons, List.sum_nil]
  rw [h3]
  omega

theorem newCalls_drain (q j a i : Nat) (targets : List Nat) :
    ((newCalls q j a i targets).map (callDrain cfg D)).sum = targets.length * 2 := by
  unfold newCalls
  induction targets with
  | nil => simp
  | cons t ts ih =>
    simp only [List.map_cons, List.sum_cons, List.length_cons]
    rw [ih, Nat.succ_mul]
    have : callDrain cfg D { rpc := q, target := t, job := j, action := a, iter := i } = 2 := rfl
    rw [this]
    omega

theorem may_part {e l : Nat} (h : MayRun cfg e l) : TakesPart cfg e := by
  induction h with
  | root h => exact .inl ⟨_, h⟩
  | handler h _ => exact .inr ⟨_, h⟩
  | nested _ _ _ ih => exact ih

theorem drain_iterate {s : CState} {b : State} {j a : Nat} {targets : List Nat} (hD : Drains cfg D)
    (hI : Inv cfg R s.base) (hall : AllRefuse cfg s)
    (hal : allowed cfg s (.iterate j a targets) = true)
    (hs : step cfg s.base (.iterate j a targets) = some b) :
    stateDrain cfg D b + 1 ≤ stateDrain cfg D s.base := by
  obtain ⟨job, x, left, hj, hx, hw, hcase⟩ := step_iterate hs
  have h1 := acts_drain (cfg := cfg) (D := D) (.running left) job.early hx hw
  have h2 := jobs_drain (cfg := cfg) (D := D)
    { job with acts := job.acts.set a (.running left) } hj
  have hleft := hI.left j job a _ x hj hw hx
  unfold allowed at hal
  dsimp only at hal
  rw [hj] at hal
  dsimp only at hal
  rw [hx, hw] at hal
  simp [(hall _ (may_part (hI.may j job hj))).1] at hal
  have hb : budget x (.running (left + 1)) = budget x (.running left) + 1 := by
    simp only [budget]
    omega
  simp only [actDrain, hb, Nat.add_mul, Nat.one_mul] at h1
  have hD' : iterDrain D x = 1 + match x.work with
    | .rpc _ fan => fan * 2
    | .list l => D l
    | .other => 0 := rfl
  rcases hcase with ⟨q, hq, ht, rfl⟩ | ⟨l, hl, rfl⟩ | ⟨hl, rfl⟩
  · have h4 := newCalls_drain (cfg := cfg) (D := D) q j a left targets
    rw [hq] at hD'
    dsimp only at hD'
    unfold stateDrain
    dsimp only at h2 ⊢
    rw [List.map_append, List.sum_append, h4]
    generalize budget x (.running left) * iterDrain D x = C at *
    omega
  · have h3 := newJob_drain hD job.engine l (.action j a left)
    rw [hl] at hD'
    dsimp only at hD'
    unfold stateDrain
    dsimp only at h2 ⊢
    rw [List.map_append, List.sum_append]
    simp only [List.map_cons, List.map_nil, List.sum_cons, List.sum_nil]
    rw [h3]
    generalize budget x (.running left) * iterDrain D x = C at *
    omega
  · unfold stateDrain
    dsimp only at h2 ⊢
    generalize budget x (.running left) * iterDrain D x = C at *
    omega

theorem leave_sum (xs : List Action) (acts : List Act) (hlen : acts.length = xs.length)
    (hw : ∃ y ∈ acts, y = Act.waiting) :
    (List.zipWith (actDrain D) xs (acts.map fun x => if x = .waiting then .skipped else x)).sum + 1 ≤
      (List.zipWith (actDrain D) xs acts).sum := by
  have hle : ∀ (xs : List Action) (acts : List Act),
      (List.zipWith (actDrain D) xs (acts.map fun x => if x = .waiting then .skipped else x)).sum ≤
        (List.zipWith (actDrain D) xs acts).sum := by
    intro xs
    induction xs with
    | nil => intro acts; simp
    | cons x xs ih =>
      intro acts
      cases acts with
      | nil => simp
      | cons y ys =>
        have := ih ys
        simp only [List.map_cons, List.zipWith_cons_cons, List.sum_cons]
        by_cases hy : y = .waiting
        · subst hy
          have e : actDrain D x .skipped = 0 := rfl
          rw [if_pos rfl, e]
          omega
        · rw [if_neg hy]
          omega
  induction xs generalizing acts with
  | nil =>
    cases acts with
    | nil => obtain ⟨y, hy, _⟩ := hw; cases hy
    | cons y ys => simp at hlen
  | cons x xs ih =>
    cases acts with
    | nil => obtain ⟨y, hy, _⟩ := hw; cases hy
    | cons y ys =>
      simp only [List.map_cons, List.zipWith_cons_cons, List.sum_cons]
      by_cases hy : y = .waiting
      · subst hy
        have e : actDrain D x .skipped = 0 := rfl
        have e' : actDrain D x .waiting = 2 + x.parallel * iterDrain D x := rfl
        have := hle xs ys
        rw [if_pos rfl, e, e']
        omega
      · rw [if_neg hy]
        have := ih ys (by simpa using hlen) (by
          obtain ⟨z, hz, he⟩ := hw
          rcases List.mem_cons.1 hz with rfl | hz
          · exact absurd he hy
          · exact ⟨z, hz, he⟩)
        omega

theorem drain_step {s s' : CState} {op : COp} (hD : Drains cfg D) (hI : Inv cfg R s.base)
    (hall : AllRefuse cfg s) (hs : cstep cfg s op = some s') :
    stateDrain cfg D s'.base + trafficSteps [op] ≤ stateDrain cfg D s.base := by
  cases op with
  | base op =>
    obtain ⟨hal, b, h1, rfl⟩ := cstep_base hs
    dsimp only
    cases op with
    | start j a => exact drain_start h1
    | skip j a => exact drain_skip hI h1
    | iterate j a t => exact drain_iterate hD hI hall hal h1
    | finish j a =>
      obtain ⟨job, x, hj, hx, hw, hopen, rfl⟩ := step_finish h1
      exact drain_ended hI hj hx hw
    | deliver c =>
      exfalso
      obtain ⟨r, hr, hst, rfl⟩ := step_deliver h1
      unfold allowed at hal
      dsimp only at hal
      rw [hr] at hal
      dsimp only at hal
      obtain ⟨_, _, _, _, _, _, _, _, hsrv, _⟩ := hI.made c r hr
      rw [(hall _ (.inr ⟨_, hsrv⟩)).2] at hal
      cases hal
    | dispatch c => exact drain_dispatch hD h1
    | endJob j => exact drain_endJob hI h1
    | complete c =>
      obtain ⟨r, hr, hst, rfl⟩ := step_complete h1
      refine drain_call hr ?_
      unfold callDrain
      rw [hst]
      simp
  | cancel e =>
    obtain ⟨_, rfl⟩ := cstep_cancel hs
    exact Nat.le_refl _
  | expire e =>
    obtain ⟨_, rfl⟩ := cstep_expire hs
    exact Nat.le_refl _
  | stop j a =>
    obtain ⟨job, x, left, hj, hx, hw, _, hopen, rfl⟩ := cstep_stop hs
    exact drain_ended hI hj hx hw
  | leave j =>
    obtain ⟨job, hj, _, hw, rfl⟩ := cstep_leave hs
    have h1 := leave_sum (D := D) (cfg.actions job.list) job.acts (hI.len j job hj) hw
    have h2 := jobs_drain (cfg := cfg) (D := D)
      { job with acts := job.acts.map fun x => if x = .waiting then .skipped else x } hj
    unfold jobDrain at h2
    dsimp only at h2 ⊢
    have h3 : trafficSteps [COp.leave j] = 1 := rfl
    rw [h3]
    unfold stateDrain jobDrain
    dsimp only
    omega
  | refuse c =>
    obtain ⟨r, hr, _, hst, rfl⟩ := cstep_refuse hs
    refine drain_call hr ?_
    unfold callDrain
    rw [hst]
    simp

theorem steps_snoc (ops : List COp) (op : COp) :
    trafficSteps (ops ++ [op]) = trafficSteps ops + trafficSteps [op] := by
  unfold trafficSteps
  rw [List.countP_append]

theorem drain_run {s0 s : CState} {ops : List COp} (hD : Drains cfg D) (hI : Inv cfg (fun _ => True) s0.base)
    (hall : AllRefuse cfg s0) (h : crun cfg s0 ops = some s) :
    trafficSteps ops + stateDrain cfg D s.base ≤ stateDrain cfg D s0.base := by
  refine (crun_induction (P := fun ops s => AllRefuse cfg s ∧
    trafficSteps ops + stateDrain cfg D s.base ≤ stateDrain cfg D s0.base) ⟨hall, by simp [trafficSteps]⟩ ?_ h).2
  intro ops s op s' hrun ⟨h1, h2⟩ hs
  have h3 := drain_step hD (inv_crun hI hrun) h1 hs
  refine ⟨fun e he => ⟨(flags_step hs).1 e (h1 e he).1, (flags_step hs).2 e (h1 e he).2⟩, ?_⟩
  rw [steps_snoc]
  omega

theorem actDrain_le (x : Action) (y : Act) : actDrain D x y ≤ actDrain D x .waiting := by
  cases y with
  | waiting => exact Nat.le_refl _
  | running n =>
    have := Nat.mul_le_mul_right (iterDrain D x) (budget_le x (.running n))
    simp only [actDrain]
    omega
  | finished => simp [actDrain]
  | skipped => simp [actDrain]

theorem sum_le {α : Type} (f g : α → Nat) (l : List α) (h : ∀ x ∈ l, f x ≤ g x) :
    (l.map f).sum ≤ (l.map g).sum := by
  induction l with
  | nil => simp
  | cons a l ih =>
    have h1 := h a (by simp)
    have h2 := ih fun x hx => h x (by simp [hx])
    simp only [List.map_cons, List.sum_cons]
    omega

theorem jobDrain_le {s : State} {j : Nat} {k : Job} (hD : Drains cfg D) (hI : Inv cfg R s)
    (hj : s.jobs[j]? = some k) : jobDrain cfg D k ≤ if k.over then 0 else D k.list := by
  unfold jobDrain
  cases ho : k.over with
  | true =>
    have hz : ∀ m ∈ List.zipWith (actDrain D) (cfg.actions k.list) k.acts, m = 0 := by
      intro m hm
      obtain ⟨i, hi⟩ := List.getElem?_of_mem hm
      rw [List.getElem?_zipWith] at hi
      cases h1 : (cfg.actions k.list)[i]? with
      | none => rw [h1] at hi; simp at hi
      | some x =>
        cases h2 : k.acts[i]? with
        | none => rw [h1, h2] at hi; simp at hi
        | some y =>
          rw [h1, h2] at hi
          simp at hi
          have := hI.over j k hj ho i y h2
          cases y with
          | waiting => cases this
          | running n => cases this
          | finished => exact hi.symm
          | skipped => exact hi.symm
    rw [sum_zero hz]
    simp
  | false =>
    simp only [Bool.false_eq_true, if_false]
    rw [drains_iff.1 hD k.list]
    have : ∀ (xs : List Action) (acts : List Act),
        (List.zipWith (actDrain D) xs acts).sum ≤ (xs.map fun x => actDrain D x .waiting).sum := by
      intro xs
      induction xs with
      | nil => intro acts; simp
      | cons x xs ih =>
        intro acts
        cases acts with
        | nil => simp
        | cons y ys =>
          have h1 := ih ys
          have h2 := actDrain_le (D := D) x y
          simp only [List.zipWith_cons_cons, List.map_cons, List.sum_cons]
          omega
    have := this (cfg.actions k.list) k.acts
    omega

theorem stateDrain_le {s : State} (hD : Drains cfg D) (hI : Inv cfg R s) :
    stateDrain cfg D s ≤ drainBound cfg D s := by
  unfold stateDrain drainBound
  apply Nat.add_le_add
  · apply sum_le
    intro k hk
    obtain ⟨j, hj⟩ := List.getElem?_of_mem hk
    exact jobDrain_le hD hI hj
  · apply sum_le
    intro r _
    unfold callDrain
    cases hh : cfg.handler r.rpc <;> cases hst : r.stage <;> simp <;> omega

end

/-! ### There is a bound if no list runs itself -/

def drainApprox (cfg : Config) : Nat → Nat → Nat
  | 0, _ => 0
  | n + 1, l => 1 + ((cfg.actions l).map fun x => actDrain (drainApprox cfg n) x .waiting).sum

theorem actDrain_congr {cfg : Config} {D D' : Nat → Nat} {x : Action}
    (h : ∀ l', x.work = .list l' → D l' = D' l') : actDrain D x .waiting = actDrain D' x .waiting := by
  have : iterDrain D x = iterDrain D' x := by
    unfold iterDrain
    cases hw : x.work with
    | rpc q fan => rfl
    | list l' => dsimp only; rw [h l' hw]
    | other => rfl
  unfold actDrain
  dsimp only
  rw [this]

theorem drain_stable {cfg : Config} {level : Nat → Nat} (h : NestLevels cfg level) :
    ∀ n m l, level l < n → level l < m → drainApprox cfg n l = drainApprox cfg m l := by
  intro n
  induction n with
  | zero => intro m l h1; omega
  | succ n ih =>
    intro m l h1 h2
    cases m with
    | zero => omega
    | succ m =>
      rw [drainApprox, drainApprox]
      congr 2
      apply List.map_congr_left
      intro x hx
      apply actDrain_congr (cfg := cfg)
      intro l' hl
      have := h l x hx l' hl
      exact ih m l' (by omega) (by omega)

theorem drains_levels {cfg : Config} {level : Nat → Nat} (h : NestLevels cfg level) :
    Drains cfg (fun l => drainApprox cfg (level l + 1) l) := by
  rw [drains_iff]
  intro l
  rw [drainApprox]
  congr 2
  apply List.map_congr_left
  intro x hx
  apply actDrain_congr (cfg := cfg)
  intro l' hl
  have := h l x hx l' hl
  exact drain_stable h _ _ _ (by omega) (by omega)

/-! ### Cancelled traffic does not get stuck -/

theorem base_blocked {cfg : Config} {s : CState} {op : Op} (h : cstep cfg s (.base op) = none)
    (ha : allowed cfg s op = true) : step cfg s.base op = none := by
  rw [cstep, if_pos ha] at h
  cases hs : step cfg s.base op with
  | none => rfl
  | some b => rw [hs] at h; cases h

theorem cancel_open {cfg : Config} {s : CState} (hsen : Sensible cfg) (hI : Inv cfg R s.base)
    (hstuck : CancelStuck cfg s) {j : Nat} {job : Job} (hj : s.base.jobs[j]? = some job)
    (hlive : job.over = false) : ∃ (a : Nat) (x : Action), 0 < openIterations s.base j a x.iters := by
  have hb : ∀ op, cstep cfg s (.base op) = none := fun op => hstuck _ (by simp)
  have hnot : ¬ ∀ x ∈ job.acts, x.ended = true := by
    intro hall
    have := base_blocked (hb (.endJob j)) rfl
    rw [step, hj] at this
    simp [hlive] at this
    obtain ⟨x, hx, hf⟩ := this
    rw [hall x hx] at hf
    cases hf
  obtain ⟨a, y, ha, hye, hbefore⟩ := first_open hnot
  have hlt : a < (cfg.actions job.list).length := by
    rw [← hI.len j job hj]
    exact (List.getElem?_eq_some_iff.1 ha).1
  have hx : (cfg.actions job.list)[a]? = some (cfg.actions job.list)[a] := List.getElem?_eq_getElem hlt
  generalize (cfg.actions job.list)[a] = x at hx
  obtain ⟨hdeps, hpar, hserv⟩ := hsen job.list a x hx
  refine ⟨a, x, ?_⟩
  cases y with
  | finished => cases hye
  | skipped => cases hye
  | waiting =>
    exfalso
    have hready : ready job x = true := by
      unfold ready
      rw [List.all_eq_true]
      intro d hd
      obtain ⟨z, h1, h2⟩ := hbefore d (hdeps d hd)
      rw [h1]
      exact h2
    have hst : startable cfg s.base j a = some (job, x) := by
      unfold startable
      rw [hj]
      dsimp only
      rw [hx]
      dsimp only
      rw [if_pos ⟨ha, hlive, hready⟩]
    cases hd : dropped job x with
    | false =>
      have := base_blocked (hb (.start j a)) rfl
      rw [step, hst] at this
      simp [hd] at this
    | true =>
      have := base_blocked (hb (.skip j a)) rfl
      rw [step, hst] at this
      simp [hd] at this
  | running n =>
    apply Classical.byContradiction
    intro hzero
    cases n with
    | zero =>
      have := base_blocked (hb (.finish j a)) rfl
      rw [step, hj] at this
      dsimp only at this
      rw [hx, ha] at this
      simp at this
      omega
    | succ n =>
      by_cases hal : s.cancelled job.engine = false ∨ x.iters - (n + 1) < x.parallel
      · obtain ⟨t, ht⟩ := can_iterate hj hx ha (by omega) hserv
        apply ht
        apply base_blocked (hb (.iterate j a t))
        unfold allowed
        dsimp only
        rw [hj]
        dsimp only
        rw [hx, ha]
        simpa using hal
      · have := hstuck (.stop j a) (by simp)
        rw [cstep, hj] at this
        dsimp only at this
        rw [hx, ha] at this
        dsimp only at this
        rw [if_pos] at this
        · cases this
        · refine ⟨?_, by omega, by omega⟩
          cases hc : s.cancelled job.engine with
          | true => rfl
          | false => exact absurd (.inl hc) hal

theorem cancel_over {cfg : Config} {s : CState} {layer : Nat → Nat} (hsen : Sensible cfg)
    (hlay : Layered cfg layer) (hz : ∀ e, cfg.threads e ≠ some 0) (hI : Inv cfg R s.base)
    (hstuck : CancelStuck cfg s) : TrafficOver s.base := by
  have hb : ∀ op, cstep cfg s (.base op) = none := fun op => hstuck _ (by simp)
  refine all_over hlay hI ?_ (fun j job hj ho => cancel_open hsen hI hstuck hj ho)
    (fun c r hc hq => queued_waits hI hz (fun c => base_blocked (hb _) rfl) hc hq)
  intro c r hc
  refine ⟨?_, fun h => complete_possible hc h (base_blocked (hb _) rfl)⟩
  intro h
  cases hr : s.refusing r.target with
  | false =>
    refine deliver_possible hc h (base_blocked (hb _) ?_)
    unfold allowed
    dsimp only
    rw [hc]
    simp [hr]
  | true =>
    have := hstuck (.refuse c) (by simp)
    rw [cstep, hc] at this
    dsimp only at this
    rw [if_pos ⟨hr, h⟩] at this
    cases this

/-! ### RPCs that are refused -/

theorem step_stage {cfg : Config} {s s' : State} {op : Op} {c : Nat} {r' : Call} (hI : Inv cfg R s)
    (hs : step cfg s op = some s') (hc : s'.calls[c]? = some r')
    (hr : ∃ r, s.calls[c]? = some r ∧ (r.stage = .answered ∨ r.stage = .completed)) :
    r'.stage = .answered ∨ r'.stage = .completed := by
  obtain ⟨r, hr, hst⟩ := hr
  have hans : ∀ p, (answer s.calls p)[c]? = some r' → r'.stage = .answered ∨ r'.stage = .completed := by
    intro p hp
    unfold answer at hp
    split at hp
    · rw [List.getElem?_modify, hr] at hp
      simp at hp
      split at hp <;> subst hp
      · exact .inl rfl
      · exact hst
    · rw [hr] at hp
      cases hp
      exact hst
  have hset : ∀ {i : Nat} {k : Call}, (s.calls.set i k)[c]? = some r' →
      (i = c → k.stage = .answered ∨ k.stage = .completed) →
      r'.stage = .answered ∨ r'.stage = .completed := by
    intro i k h1 h2
    by_cases he : i = c
    · subst he
      rw [List.getElem?_set_self (List.getElem?_eq_some_iff.1 hr).1] at h1
      cases h1
      exact h2 rfl
    · rw [List.getElem?_set_ne he, hr] at h1
      cases h1
      exact hst
  have hsame : s.calls[c]? = some r' → r'.stage = .answered ∨ r'.stage = .completed := by
    intro h
    rw [hr] at h
    cases h
    exact hst
  cases op with
  | start j a => obtain ⟨job, x, hj, hx, hw, ho, hready, hd, rfl⟩ := step_start hs; exact hsame hc
  | skip j a =>
    obtain ⟨job, x, hj, hx, hw, ho, hready, hd, rfl⟩ := step_skip hs
    dsimp only at hc
    split at hc
    · exact hans _ hc
    · exact hsame hc
  | iterate j a t =>
    obtain ⟨job, x, left, hj, hx, hw, hcase⟩ := step_iterate hs
    rcases hcase with ⟨q, hq, ht, rfl⟩ | ⟨l, hl, rfl⟩ | ⟨hl, rfl⟩
    · dsimp only at hc
      rw [List.getElem?_append_left (List.getElem?_eq_some_iff.1 hr).1] at hc
      exact hsame hc
    · exact hsame hc
    · exact hsame hc
  | finish j a =>
    obtain ⟨job, x, hj, hx, hw, hopen, rfl⟩ := step_finish hs
    dsimp only at hc
    split at hc
    · exact hans _ hc
    · exact hsame hc
  | deliver i =>
    obtain ⟨q, hq, hsent, rfl⟩ := step_deliver hs
    refine hset hc ?_
    rintro rfl
    rw [hr] at hq
    cases hq
    rcases hst with h | h <;> rw [h] at hsent <;> cases hsent
  | dispatch i =>
    obtain ⟨q, l, hq, hl, hsent, hfree, rfl⟩ := step_dispatch hs
    refine hset hc ?_
    rintro rfl
    rw [hr] at hq
    cases hq
    rcases hst with h | h <;> rw [h] at hsent <;> cases hsent
  | endJob j =>
    obtain ⟨job, hj, ho, hall, rfl⟩ := step_endJob hs
    dsimp only at hc
    split at hc
    · exact hans _ hc
    · exact hsame hc
  | complete i =>
    obtain ⟨q, hq, hsent, rfl⟩ := step_complete hs
    exact hset hc (fun _ => .inr rfl)

/-- An RPC that was refused is answered, and no list handles it. -/
def Unserved (s : State) (c : Nat) : Prop :=
  (∃ r, s.calls[c]? = some r ∧ (r.stage = .answered ∨ r.stage = .completed)) ∧
    ∀ k ∈ s.jobs, k.parent ≠ .call c

theorem answer_length (calls : List Call) (p : Parent) : (answer calls p).length = calls.length := by
  unfold answer
  split <;> simp

theorem calls_grow {cfg : Config} {s s' : State} {op : Op} (hs : step cfg s op = some s') :
    s.calls.length ≤ s'.calls.length := by
  cases op with
  | start j a => obtain ⟨job, x, hj, hx, hw, ho, hready, hd, rfl⟩ := step_start hs; simp
  | skip j a =>
    obtain ⟨job, x, hj, hx, hw, ho, hready, hd, rfl⟩ := step_skip hs
    dsimp only
    split
    · rw [answer_length]; omega
    · omega
  | iterate j a t =>
    obtain ⟨job, x, left, hj, hx, hw, hcase⟩ := step_iterate hs
    rcases hcase with ⟨q, hq, ht, rfl⟩ | ⟨l, hl, rfl⟩ | ⟨hl, rfl⟩ <;> simp
  | finish j a =>
    obtain ⟨job, x, hj, hx, hw, hopen, rfl⟩ := step_finish hs
    dsimp only
    split
    · rw [answer_length]; omega
    · omega
  | deliver c => obtain ⟨r, hr, hst, rfl⟩ := step_deliver hs; simp
  | dispatch c => obtain ⟨r, l, hr, hl, hst, hfree, rfl⟩ := step_dispatch hs; simp
  | endJob j =>
    obtain ⟨job, hj, ho, hall, rfl⟩ := step_endJob hs
    dsimp only
    split
    · rw [answer_length]; omega
    · omega
  | complete c => obtain ⟨r, hr, hst, rfl⟩ := step_complete hs; simp

theorem parents_set {jobs : List Job} {j c : Nat} {job job' : Job} (h : ∀ k ∈ jobs, k.parent ≠ .call c)
    (hj : jobs[j]? = some job) (hp : job'.parent = job.parent) :
    ∀ k ∈ jobs.set j job', k.parent ≠ .call c := by
  intro k hk
  rcases List.mem_or_eq_of_mem_set hk with hk | rfl
  · exact h k hk
  · rw [hp]
    exact h job (List.mem_of_getElem? hj)

theorem unserved_base {cfg : Config} {s s' : State} {op : Op} {c : Nat} (hI : Inv cfg R s)
    (hs : step cfg s op = some s') (h : Unserved s c) : Unserved s' c := by
  obtain ⟨hr, hno⟩ := h
  refine ⟨?_, ?_⟩
  · have hr' := hr
    obtain ⟨r, h1, _⟩ := hr'
    have hlt := (List.getElem?_eq_some_iff.1 h1).1
    have := calls_grow hs
    have hsome : s'.calls[c]? = some s'.calls[c] := List.getElem?_eq_getElem (by omega)
    exact ⟨_, hsome, step_stage hI hs hsome hr⟩
  · cases op with
    | start j a =>
      obtain ⟨job, x, hj, hx, hw, ho, hready, hd, rfl⟩ := step_start hs
      exact parents_set hno hj rfl
    | skip j a =>
      obtain ⟨job, x, hj, hx, hw, ho, hready, hd, rfl⟩ := step_skip hs
      exact parents_set hno hj rfl
    | iterate j a t =>
      obtain ⟨job, x, left, hj, hx, hw, hcase⟩ := step_iterate hs
      have hset := parents_set (job' := { job with acts := job.acts.set a (.running left) }) hno hj rfl
      rcases hcase with ⟨q, hq, ht, rfl⟩ | ⟨l, hl, rfl⟩ | ⟨hl, rfl⟩
      · exact hset
      · intro k hk
        rcases List.mem_append.1 hk with hk | hk
        · exact hset k hk
        · simp at hk
          subst hk
          simp [newJob]
      · exact hset
    | finish j a =>
      obtain ⟨job, x, hj, hx, hw, hopen, rfl⟩ := step_finish hs
      exact parents_set hno hj rfl
    | deliver i => obtain ⟨q, hq, hsent, rfl⟩ := step_deliver hs; exact hno
    | dispatch i =>
      obtain ⟨q, l, hq, hl, hsent, hfree, rfl⟩ := step_dispatch hs
      intro k hk
      rcases List.mem_append.1 hk with hk | hk
      · exact hno k hk
      · simp at hk
        subst hk
        intro he
        simp only [newJob, Parent.call.injEq] at he
        subst he
        obtain ⟨r, h1, h2⟩ := hr
        rw [hq] at h1
        cases h1
        rcases h2 with h | h <;> rw [h] at hsent <;> cases hsent
    | endJob j =>
      obtain ⟨job, hj, ho, hall, rfl⟩ := step_endJob hs
      exact parents_set hno hj rfl
    | complete i => obtain ⟨q, hq, hsent, rfl⟩ := step_complete hs; exact hno

theorem unserved_step {cfg : Config} {s s' : CState} {op : COp} {c : Nat} (hI : Inv cfg R s.base)
    (hs : cstep cfg s op = some s') (h : Unserved s.base c) : Unserved s'.base c := by
  cases op with
  | base op => obtain ⟨_, b, h1, rfl⟩ := cstep_base hs; exact unserved_base hI h1 h
  | cancel e => obtain ⟨_, rfl⟩ := cstep_cancel hs; exact h
  | expire e => obtain ⟨_, rfl⟩ := cstep_expire hs; exact h
  | stop j a =>
    obtain ⟨job, x, left, hj, hx, hw, _, hopen, rfl⟩ := cstep_stop hs
    obtain ⟨⟨r, h1, h2⟩, hno⟩ := h
    refine ⟨?_, parents_set hno hj rfl⟩
    dsimp only
    split
    · unfold answer
      split
      · rw [List.getElem?_modify, h1]
        simp
        split
        · exact .inl rfl
        · exact h2
      · exact ⟨r, h1, h2⟩
    · exact ⟨r, h1, h2⟩
  | leave j =>
    obtain ⟨job, hj, _, _, rfl⟩ := cstep_leave hs
    exact ⟨h.1, parents_set h.2 hj rfl⟩
  | refuse i =>
    obtain ⟨q, hq, _, hst, rfl⟩ := cstep_refuse hs
    obtain ⟨⟨r, h1, h2⟩, hno⟩ := h
    refine ⟨?_, hno⟩
    by_cases he : i = c
    · subst he
      exact ⟨{ q with stage := .answered }, List.getElem?_set_self (List.getElem?_eq_some_iff.1 h1).1, .inl rfl⟩
    · exact ⟨r, by dsimp only; rw [List.getElem?_set_ne he]; exact h1, h2⟩

theorem unserved_refuse {cfg : Config} {s s' : CState} {c : Nat} (hI : Inv cfg R s.base)
    (hs : cstep cfg s (.refuse c) = some s') : Unserved s'.base c := by
  obtain ⟨q, hq, _, hst, rfl⟩ := cstep_refuse hs
  refine ⟨⟨{ q with stage := .answered }, List.getElem?_set_self (List.getElem?_eq_some_iff.1 hq).1, .inl rfl⟩, ?_⟩
  intro k hk hp
  obtain ⟨j, hj⟩ := List.getElem?_of_mem hk
  obtain ⟨r, h1, _, _, _, h5, _⟩ := hI.parent j k c hj hp
  rw [hq] at h1
  cases h1
  exact h5 hst

/-- Only cancelled engines refuse RPCs. -/
theorem refusing_cancelled {cfg : Config} {s : CState} {ops : List COp} (h : CancelRun cfg ops s) :
    ∀ e, s.refusing e = true → s.cancelled e = true := by
  refine crun_induction (P := fun _ s => ∀ e, s.refusing e = true → s.cancelled e = true) ?_ ?_ h
  · intro e he; cases he
  · intro ops s op s' _ hP hs
    cases op with
    | base op => obtain ⟨_, b, _, rfl⟩ := cstep_base hs; exact hP
    | cancel e =>
      obtain ⟨_, rfl⟩ := cstep_cancel hs
      intro i hi
      simp [hP i hi]
    | expire e =>
      have hc : s.cancelled e = true := by
        rw [cstep] at hs
        split at hs
        · next hg => simp at hg; exact hg.1
        · cases hs
      obtain ⟨_, rfl⟩ := cstep_expire hs
      intro i hi
      simp at hi
      rcases hi with rfl | hi
      · exact hc
      · exact hP i hi
    | stop j a => obtain ⟨job, x, left, _, _, _, _, _, rfl⟩ := cstep_stop hs; exact hP
    | leave j => obtain ⟨job, _, _, _, rfl⟩ := cstep_leave hs; exact hP
    | refuse c => obtain ⟨r, _, _, _, rfl⟩ := cstep_refuse hs; exact hP

/-- The RPCs that were refused: none is handled, and each was for an engine that is cancelled. -/
theorem refused_run {cfg : Config} {s : CState} {ops : List COp} (h : CancelRun cfg ops s) {c : Nat}
    (hc : .refuse c ∈ ops) : Unserved s.base c ∧ ∃ r, s.base.calls[c]? = some r ∧ s.cancelled r.target = true := by
  have hkey : ∀ ops s, crun cfg { base := initial cfg } ops = some s → .refuse c ∈ ops →
      Unserved s.base c := by
    intro ops s hr
    refine crun_induction (P := fun ops s => .refuse c ∈ ops → Unserved s.base c) (by simp) ?_ hr
    intro ops s op s' hrun ih hs hm
    have hI := inv_cancel hrun
    rcases List.mem_append.1 hm with hm | hm
    · exact unserved_step hI hs (ih hm)
    · simp at hm
      subst hm
      exact unserved_refuse hI hs
  refine ⟨hkey ops s h hc, ?_⟩
  refine crun_induction (P := fun ops s => .refuse c ∈ ops →
    ∃ r, s.base.calls[c]? = some r ∧ s.cancelled r.target = true) (by simp) ?_ h hc
  intro ops s op s' hrun ih hs hm
  have hfl := (flags_step hs).1
  have htarget : ∀ (r : Call), s.base.calls[c]? = some r →
      ∃ r', s'.base.calls[c]? = some r' ∧ r'.target = r.target := by
    intro r hr
    have hans : ∀ p, ∃ r', (answer s.base.calls p)[c]? = some r' ∧ r'.target = r.target := by
      intro p
      unfold answer
      split
      · rw [List.getElem?_modify, hr]
        simp
        split <;> rfl
      · exact ⟨r, hr, rfl⟩
    have hset : ∀ (i : Nat) (q q' : Call), s.base.calls[i]? = some q → q'.target = q.target →
        ∃ r', (s.base.calls.set i q')[c]? = some r' ∧ r'.target = r.target := by
      intro i q q' hq ht
      by_cases he : i = c
      · subst he
        rw [hr] at hq
        cases hq
        exact ⟨q', List.getElem?_set_self (List.getElem?_eq_some_iff.1 hr).1, ht⟩
      · exact ⟨r, by rw [List.getElem?_set_ne he]; exact hr, rfl⟩
    cases op with
    | base op =>
      obtain ⟨_, b, h1, rfl⟩ := cstep_base hs
      dsimp only
      cases op with
      | start j a => obtain ⟨job, x, hj, hx, hw, ho, hready, hd, rfl⟩ := step_start h1; exact ⟨r, hr, rfl⟩
      | skip j a =>
        obtain ⟨job, x, hj, hx, hw, ho, hready, hd, rfl⟩ := step_skip h1
        dsimp only
        split
        · exact hans _
        · exact ⟨r, hr, rfl⟩
      | iterate j a t =>
        obtain ⟨job, x, left, hj, hx, hw, hcase⟩ := step_iterate h1
        rcases hcase with ⟨q, hq, ht, rfl⟩ | ⟨l, hl, rfl⟩ | ⟨hl, rfl⟩
        · exact ⟨r, by
            dsimp only
            rw [List.getElem?_append_left (List.getElem?_eq_some_iff.1 hr).1]
            exact hr, rfl⟩
        · exact ⟨r, hr, rfl⟩
        · exact ⟨r, hr, rfl⟩
      | finish j a =>
        obtain ⟨job, x, hj, hx, hw, hopen, rfl⟩ := step_finish h1
        dsimp only
        split
        · exact hans _
        · exact ⟨r, hr, rfl⟩
      | deliver i => obtain ⟨q, hq, hsent, rfl⟩ := step_deliver h1; exact hset i q _ hq rfl
      | dispatch i =>
        obtain ⟨q, l, hq, hl, hsent, hfree, rfl⟩ := step_dispatch h1
        exact hset i q _ hq rfl
      | endJob j =>
        obtain ⟨job, hj, ho, hall, rfl⟩ := step_endJob h1
        dsimp only
        split
        · exact hans _
        · exact ⟨r, hr, rfl⟩
      | complete i => obtain ⟨q, hq, hsent, rfl⟩ := step_complete h1; exact hset i q _ hq rfl
    | cancel e => obtain ⟨_, rfl⟩ := cstep_cancel hs; exact ⟨r, hr, rfl⟩
    | expire e => obtain ⟨_, rfl⟩ := cstep_expire hs; exact ⟨r, hr, rfl⟩
    | stop j a =>
      obtain ⟨job, x, left, hj, hx, hw, _, hopen, rfl⟩ := cstep_stop hs
      dsimp only
      split
      · exact hans _
      · exact ⟨r, hr, rfl⟩
    | leave j => obtain ⟨job, hj, _, _, rfl⟩ := cstep_leave hs; exact ⟨r, hr, rfl⟩
    | refuse i => obtain ⟨q, hq, _, hst, rfl⟩ := cstep_refuse hs; exact hset i q _ hq rfl
  rcases List.mem_append.1 hm with hm | hm
  · obtain ⟨r, h1, h2⟩ := ih hm
    obtain ⟨r', h3, h4⟩ := htarget r h1
    exact ⟨r', h3, by rw [h4]; exact hfl _ h2⟩
  · simp at hm
    subst hm
    obtain ⟨q, hq, href, _⟩ := cstep_refuse hs
    obtain ⟨r', h3, h4⟩ := htarget q hq
    exact ⟨r', h3, by rw [h4]; exact hfl _ (refusing_cancelled hrun _ href)⟩

end Distbench.Traffic
