import Verif.Lemmas.TrafficInv

/-! Lemmas for Props/Traffic.lean: every step does some of the work that is left. -/

namespace Distbench.Traffic
open Spec

variable {R : Nat → Prop}

section
variable {cfg : Config} {w : Weights} {G : Nat → Nat}

theorem acts_left {job : Job} {a : Nat} {x : Action} {y : Act} (z : Act) (early : Option Nat)
    (hx : (cfg.actions job.list)[a]? = some x) (hy : job.acts[a]? = some y) :
    jobLeft cfg w G { job with acts := job.acts.set a z, early := early } + actLeft cfg w G x y =
      jobLeft cfg w G job + actLeft cfg w G x z := by
  have := zip_sum_set (actLeft cfg w G) z hx hy
  unfold jobLeft
  dsimp only
  omega

theorem jobs_left {jobs : List Job} {j : Nat} {job : Job} (k : Job) (h : jobs[j]? = some job) :
    ((jobs.set j k).map (jobLeft cfg w G)).sum + jobLeft cfg w G job =
      (jobs.map (jobLeft cfg w G)).sum + jobLeft cfg w G k :=
  sum_set _ _ h

theorem running_of_unanswered {s : State} {j : Nat} {job : Job} (h : Inv cfg R s)
    (hj : s.jobs[j]? = some job) (hu : Unanswered job) :
    ∀ (c : Nat) (r : Call), job.parent = .call c → s.calls[c]? = some r → r.stage = .running := by
  intro c r hp hc
  obtain ⟨r', h1, _, _, _, _, _, h7⟩ := h.parent j job c hj hp
  rw [hc] at h1
  cases h1
  exact h7.2 hu

theorem over_false {s : State} {j a n : Nat} {job : Job} (h : Inv cfg R s) (hj : s.jobs[j]? = some job)
    (hw : job.acts[a]? = some (.running n)) : job.over = false := by
  cases hb : job.over with
  | false => rfl
  | true => have := h.over j job hj hb a _ hw; cases this

theorem left_start {s s' : State} {j a : Nat} (hs : step cfg s (.start j a) = some s') :
    w.start + stateLeft cfg w G s' = stateLeft cfg w G s := by
  obtain ⟨job, x, hj, hx, hw, ho, hready, hd, rfl⟩ := step_start hs
  have h1 := acts_left (cfg := cfg) (w := w) (G := G) (.running x.iters) (designate cfg job x a) hx hw
  have h2 := jobs_left (cfg := cfg) (w := w) (G := G)
    { job with acts := job.acts.set a (.running x.iters), early := designate cfg job x a } hj
  unfold stateLeft
  simp only [actLeft] at h1
  dsimp only at h2 ⊢
  omega

theorem skip_unanswered {s : State} {j a : Nat} {job : Job} {x : Action} (h : Inv cfg R s)
    (hj : s.jobs[j]? = some job) (hw : job.acts[a]? = some .waiting) (ho : job.over = false)
    (hdes : designate cfg job x a = some a) : Unanswered job := by
  have hnot : job.early ≠ some a := by
    intro he
    obtain ⟨y, h1, h2⟩ := h.early j job a hj he
    rw [hw] at h1
    cases h1
    exact h2 rfl
  have hnone : job.early = none := by
    unfold designate at hdes
    split at hdes
    · next hh => exact hh.1
    · exact absurd hdes hnot
  refine ⟨ho, ?_⟩
  intro b y hb
  rw [hnone] at hb
  cases hb

theorem left_skip {s s' : State} {j a : Nat} (h : Inv cfg R s) (hs : step cfg s (.skip j a) = some s') :
    w.start + stateLeft cfg w G s' ≤ stateLeft cfg w G s := by
  obtain ⟨job, x, hj, hx, hw, ho, hready, hd, rfl⟩ := step_skip hs
  have h1 := acts_left (cfg := cfg) (w := w) (G := G) .skipped (designate cfg job x a) hx hw
  have h2 := jobs_left (cfg := cfg) (w := w) (G := G)
    { job with acts := job.acts.set a .skipped, early := designate cfg job x a } hj
  have h3 : ((if designate cfg job x a = some a then answer s.calls job.parent else s.calls).map
      fun c => callLeft cfg w G c.rpc c.stage).sum =
      (s.calls.map fun c => callLeft cfg w G c.rpc c.stage).sum := by
    split
    · next hdes => exact answer_left _ _ (running_of_unanswered h hj (skip_unanswered h hj hw ho hdes))
    · rfl
  unfold stateLeft
  simp only [actLeft] at h1
  dsimp only at h2 ⊢
  rw [h3]
  omega

theorem left_finish {s s' : State} {j a : Nat} (h : Inv cfg R s)
    (hs : step cfg s (.finish j a) = some s') :
    w.fin + stateLeft cfg w G s' = stateLeft cfg w G s := by
  obtain ⟨job, x, hj, hx, hw, hopen, rfl⟩ := step_finish hs
  have h1 := acts_left (cfg := cfg) (w := w) (G := G) .finished job.early hx hw
  have h2 := jobs_left (cfg := cfg) (w := w) (G := G) { job with acts := job.acts.set a .finished } hj
  have h3 : ((if job.early = some a then answer s.calls job.parent else s.calls).map
      fun c => callLeft cfg w G c.rpc c.stage).sum =
      (s.calls.map fun c => callLeft cfg w G c.rpc c.stage).sum := by
    split
    · next he =>
      refine answer_left _ _ (running_of_unanswered h hj ⟨over_false h hj hw, ?_⟩)
      intro b y hb hy
      rw [he] at hb
      cases hb
      rw [hw] at hy
      cases hy
      rfl
    · rfl
  unfold stateLeft
  simp only [actLeft] at h1
  dsimp only at h2 ⊢
  rw [h3]
  omega

theorem left_endJob {s s' : State} {j : Nat} (h : Inv cfg R s)
    (hs : step cfg s (.endJob j) = some s') :
    w.job + stateLeft cfg w G s' = stateLeft cfg w G s := by
  obtain ⟨job, hj, ho, hall, rfl⟩ := step_endJob hs
  have h1 : jobLeft cfg w G { job with over := true } + w.job = jobLeft cfg w G job := by
    unfold jobLeft
    simp [ho]
    omega
  have h2 := jobs_left (cfg := cfg) (w := w) (G := G) { job with over := true } hj
  have h3 : ((if job.early = none then answer s.calls job.parent else s.calls).map
      fun c => callLeft cfg w G c.rpc c.stage).sum =
      (s.calls.map fun c => callLeft cfg w G c.rpc c.stage).sum := by
    split
    · next he =>
      refine answer_left _ _ (running_of_unanswered h hj ⟨ho, ?_⟩)
      intro b y hb hy
      rw [he] at hb
      cases hb
    · rfl
  unfold stateLeft
  dsimp only at h2 ⊢
  rw [h3]
  omega

theorem left_deliver {s s' : State} {c : Nat} (hs : step cfg s (.deliver c) = some s') :
    w.deliver + stateLeft cfg w G s' = stateLeft cfg w G s := by
  obtain ⟨r, hr, hst, rfl⟩ := step_deliver hs
  have h2 := sum_set (fun c => callLeft cfg w G c.rpc c.stage)
    ({ r with stage := match cfg.handler r.rpc with | none => .answered | some _ => .queued } : Call) hr
  unfold stateLeft
  dsimp only at h2 ⊢
  rw [hst] at h2
  cases hh : cfg.handler r.rpc with
  | none => simp only [callLeft, hh] at h2 ⊢; omega
  | some l => simp only [callLeft, hh] at h2 ⊢; omega

theorem left_dispatch {s s' : State} {c : Nat} (hG : Solves cfg w G)
    (hs : step cfg s (.dispatch c) = some s') :
    w.dispatch + stateLeft cfg w G s' = stateLeft cfg w G s := by
  obtain ⟨r, l, hr, hl, hst, hfree, rfl⟩ := step_dispatch hs
  have h2 := sum_set (fun c => callLeft cfg w G c.rpc c.stage) ({ r with stage := .running } : Call) hr
  have h3 := newJob_left hG r.target l (.call c)
  unfold stateLeft
  dsimp only at h2 ⊢
  rw [hst] at h2
  have e1 : callLeft cfg w G r.rpc .queued = w.dispatch + G l + w.complete := by simp only [callLeft, hl]
  have e2 : callLeft cfg w G r.rpc .running = w.complete := rfl
  rw [e1, e2] at h2
  rw [List.map_append, List.sum_append]
  simp only [List.map_cons, List.map_nil, List.sum_cons, List.sum_nil]
  rw [h3]
  omega

theorem left_complete {s s' : State} {c : Nat} (hs : step cfg s (.complete c) = some s') :
    w.complete + stateLeft cfg w G s' = stateLeft cfg w G s := by
  obtain ⟨r, hr, hst, rfl⟩ := step_complete hs
  have h2 := sum_set (fun c => callLeft cfg w G c.rpc c.stage) ({ r with stage := .completed } : Call) hr
  unfold stateLeft
  dsimp only at h2 ⊢
  rw [hst] at h2
  have e1 : callLeft cfg w G r.rpc .answered = w.complete := rfl
  have e2 : callLeft cfg w G r.rpc .completed = 0 := rfl
  rw [e1, e2] at h2
  omega

theorem newCalls_left (q j a i : Nat) (targets : List Nat) :
    ((newCalls q j a i targets).map fun c => callLeft cfg w G c.rpc c.stage).sum =
      targets.length * callLeft cfg w G q .sent := by
  unfold newCalls
  induction targets with
  | nil => simp
  | cons t ts ih =>
    simp only [List.map_cons, List.sum_cons, List.length_cons]
    rw [ih, Nat.succ_mul]
    omega

theorem left_iterate {s s' : State} {j a : Nat} {targets : List Nat} (hG : Solves cfg w G)
    (hs : step cfg s (.iterate j a targets) = some s') :
    opWorth cfg w s (.iterate j a targets) + stateLeft cfg w G s' = stateLeft cfg w G s := by
  obtain ⟨job, x, left, hj, hx, hw, hcase⟩ := step_iterate hs
  have h1 := acts_left (cfg := cfg) (w := w) (G := G) (.running left) job.early hx hw
  have h2 := jobs_left (cfg := cfg) (w := w) (G := G)
    { job with acts := job.acts.set a (.running left) } hj
  simp only [actLeft, Nat.add_mul, Nat.one_mul] at h1
  obtain ⟨deps, work, iters, parallel, responds, conditional, timed⟩ := x
  rcases hcase with ⟨q, hq, ht, rfl⟩ | ⟨l, hl, rfl⟩ | ⟨hl, rfl⟩
  · dsimp only at hq
    subst hq
    have h4 := newCalls_left (cfg := cfg) (w := w) (G := G) q j a left targets
    unfold stateLeft opWorth
    dsimp only at h2 ⊢
    rw [hj]
    dsimp only
    rw [hx]
    dsimp only
    rw [List.map_append, List.sum_append, h4]
    have : iterWorth cfg w G ⟨deps, .rpc q targets.length, iters, parallel, responds, conditional, timed⟩ =
        w.iter + (targets.length * w.call q + targets.length * callLeft cfg w G q .sent) := by
      unfold iterWorth
      dsimp only
      rw [Nat.mul_add]
    generalize targets.length * w.call q = A at *
    generalize targets.length * callLeft cfg w G q .sent = B at *
    generalize left * iterWorth cfg w G ⟨deps, .rpc q targets.length, iters, parallel, responds, conditional, timed⟩ = C
      at *
    omega
  · dsimp only at hl
    subst hl
    have h3 := newJob_left hG job.engine l (.action j a left)
    unfold stateLeft opWorth
    dsimp only at h2 ⊢
    rw [hj]
    dsimp only
    rw [hx]
    dsimp only
    rw [List.map_append, List.sum_append]
    simp only [List.map_cons, List.map_nil, List.sum_cons, List.sum_nil]
    rw [h3]
    have : iterWorth cfg w G ⟨deps, .list l, iters, parallel, responds, conditional, timed⟩ =
        w.iter + G l := rfl
    rw [this] at h1
    omega
  · dsimp only at hl
    subst hl
    unfold stateLeft opWorth
    dsimp only at h2 ⊢
    rw [hj]
    dsimp only
    rw [hx]
    dsimp only
    have : iterWorth cfg w G ⟨deps, .other, iters, parallel, responds, conditional, timed⟩ = w.iter + 0 := rfl
    rw [this] at h1
    omega

/-- Every step does some of the work that is left, and nothing is lost unless an action is skipped. -/
theorem step_left {s s' : State} {op : Op} (hG : Solves cfg w G) (h : Inv cfg R s)
    (hs : step cfg s op = some s') :
    opWorth cfg w s op + stateLeft cfg w G s' ≤ stateLeft cfg w G s ∧
      ((∀ j a, op ≠ .skip j a) → opWorth cfg w s op + stateLeft cfg w G s' = stateLeft cfg w G s) := by
  cases op with
  | start j a => have := left_start (w := w) (G := G) hs; exact ⟨Nat.le_of_eq this, fun _ => this⟩
  | skip j a => exact ⟨left_skip h hs, fun hn => absurd rfl (hn j a)⟩
  | iterate j a t => have := left_iterate hG hs; exact ⟨Nat.le_of_eq this, fun _ => this⟩
  | finish j a => have := left_finish (w := w) (G := G) h hs; exact ⟨Nat.le_of_eq this, fun _ => this⟩
  | deliver c => have := left_deliver (w := w) (G := G) hs; exact ⟨Nat.le_of_eq this, fun _ => this⟩
  | dispatch c => have := left_dispatch hG hs; exact ⟨Nat.le_of_eq this, fun _ => this⟩
  | endJob j => have := left_endJob (w := w) (G := G) h hs; exact ⟨Nat.le_of_eq this, fun _ => this⟩
  | complete c => have := left_complete (w := w) (G := G) hs; exact ⟨Nat.le_of_eq this, fun _ => this⟩

theorem initial_left (hG : Solves cfg w G) :
    stateLeft cfg w G (initial cfg) = (cfg.roots.map fun r => G r.2).sum := by
  unfold stateLeft initial
  dsimp only
  rw [List.map_map]
  simp only [List.map_nil, List.sum_nil, Nat.add_zero]
  congr 1
  apply List.map_congr_left
  intro r _
  exact newJob_left hG _ _ _

theorem sum_zero {l : List Nat} (h : ∀ x ∈ l, x = 0) : l.sum = 0 := by
  induction l with
  | nil => rfl
  | cons a l ih =>
    rw [List.sum_cons, h a (by simp), ih (fun x hx => h x (by simp [hx]))]

theorem over_left {s : State} (h : Inv cfg R s) (ho : TrafficOver s) : stateLeft cfg w G s = 0 := by
  unfold stateLeft
  rw [sum_zero, sum_zero]
  · intro n hn
    obtain ⟨c, hc, rfl⟩ := List.mem_map.1 hn
    rw [ho.2 c hc]
    rfl
  · intro n hn
    obtain ⟨k, hk, rfl⟩ := List.mem_map.1 hn
    obtain ⟨j, hj⟩ := List.getElem?_of_mem hk
    have hov := ho.1 k hk
    unfold jobLeft
    rw [if_pos hov, sum_zero]
    intro m hm
    obtain ⟨i, hi⟩ := List.getElem?_of_mem hm
    rw [List.getElem?_zipWith] at hi
    cases h1 : (cfg.actions k.list)[i]? with
    | none => rw [h1] at hi; simp at hi
    | some x =>
      cases h2 : k.acts[i]? with
      | none => rw [h1, h2] at hi; simp at hi
      | some y =>
        rw [h1, h2] at hi
        simp at hi
        have := h.over j k hj hov i y h2
        cases y with
        | waiting => cases this
        | running n => cases this
        | finished => exact hi.symm
        | skipped => exact hi.symm

end

/-! ### There is a solution if no list leads to itself -/

def approx (cfg : Config) (w : Weights) : Nat → Nat → Nat
  | 0, _ => 0
  | n + 1, l => w.job + ((cfg.actions l).map fun x => actLeft cfg w (approx cfg w n) x .waiting).sum

theorem actLeft_congr {cfg : Config} {w : Weights} {G G' : Nat → Nat} {l : Nat} {x : Action}
    (hx : x ∈ cfg.actions l) (h : ∀ l', LeadsToList cfg l l' → G l' = G' l') :
    actLeft cfg w G x .waiting = actLeft cfg w G' x .waiting := by
  have : iterWorth cfg w G x = iterWorth cfg w G' x := by
    unfold iterWorth
    cases hw : x.work with
    | rpc q fan =>
      dsimp only
      unfold callLeft
      cases hh : cfg.handler q with
      | none => rfl
      | some l' =>
        dsimp only
        rw [h l' ⟨x, hx, .inr ⟨q, fan, hw, hh⟩⟩]
    | list l' =>
      dsimp only
      rw [h l' ⟨x, hx, .inl hw⟩]
    | other => rfl
  unfold actLeft
  dsimp only
  rw [this]

theorem approx_stable {cfg : Config} {w : Weights} {level : Nat → Nat} (h : Levels cfg level) :
    ∀ n m l, level l < n → level l < m → approx cfg w n l = approx cfg w m l := by
  intro n
  induction n with
  | zero => intro m l h1; omega
  | succ n ih =>
    intro m l h1 h2
    cases m with
    | zero => omega
    | succ m =>
      rw [approx, approx]
      congr 2
      apply List.map_congr_left
      intro x hx
      apply actLeft_congr hx
      intro l' hl
      have := h l l' hl
      exact ih m l' (by omega) (by omega)

theorem solves_levels {cfg : Config} (w : Weights) {level : Nat → Nat} (h : Levels cfg level) :
    Solves cfg w (fun l => approx cfg w (level l + 1) l) := by
  intro l
  dsimp only
  rw [approx]
  congr 2
  apply List.map_congr_left
  intro x hx
  apply actLeft_congr hx
  intro l' hl
  have := h l l' hl
  exact approx_stable h _ _ _ (by omega) (by omega)

/-! ### Counting RPCs and steps -/

/-- Only RPCs of kind `r` count. -/
def countRpc (r : Nat) : Weights :=
  { job := 0, start := 0, iter := 0, fin := 0, call := fun q => if q = r then 1 else 0, deliver := 0,
    dispatch := 0, complete := 0 }

/-- Every step counts. -/
def countSteps : Weights :=
  { job := 1, start := 1, iter := 1, fin := 1, call := fun _ => 0, deliver := 1, dispatch := 1,
    complete := 1 }

theorem predicts_iff {cfg : Config} {r : Nat} {E : Nat → Nat} :
    Predicts cfg r E ↔ Solves cfg (countRpc r) E := by
  unfold Predicts Solves
  refine forall_congr' fun l => ?_
  have : ((cfg.actions l).map fun x => x.iters * match x.work with
      | .rpc q fan => fan * ((if q = r then 1 else 0) +
          match cfg.handler q with
          | none => 0
          | some l' => E l')
      | .list l' => E l'
      | .other => 0) = ((cfg.actions l).map fun x => actLeft cfg (countRpc r) E x .waiting) := by
    apply List.map_congr_left
    intro x _
    unfold actLeft iterWorth callLeft countRpc
    dsimp only
    cases x.work with
    | rpc q fan => cases hh : cfg.handler q with
      | none => simp [hh]
      | some l' => simp [hh]
    | list l' => simp
    | other => simp
  have h0 : (countRpc r).job = 0 := rfl
  rw [h0, Nat.zero_add]
  exact ⟨fun h => h.trans (congrArg List.sum this), fun h => h.trans (congrArg List.sum this).symm⟩

theorem newCalls_count (q j a i r : Nat) (targets : List Nat) :
    (newCalls q j a i targets).countP (fun c => c.rpc = r) =
      targets.length * (if q = r then 1 else 0) := by
  unfold newCalls
  rw [List.countP_map]
  split
  · next h =>
    subst h
    have : ((fun c : Call => decide (c.rpc = q)) ∘
      fun t => ({ rpc := q, target := t, job := j, action := a, iter := i } : Call)) = fun _ => true := by
      funext t; simp
    rw [this, List.countP_true]
    simp
  · next h =>
    have : ((fun c : Call => decide (c.rpc = r)) ∘
      fun t => ({ rpc := q, target := t, job := j, action := a, iter := i } : Call)) = fun _ => false := by
      funext t; simp [h]
    rw [this, List.countP_false]
    simp

theorem countP_set_same {α : Type} (p : α → Bool) {l : List α} {i : Nat} {x y : α}
    (h : l[i]? = some x) (hp : p y = p x) : (l.set i y).countP p = l.countP p := by
  induction l generalizing i with
  | nil => simp at h
  | cons a l ih =>
    cases i with
    | zero => simp at h; subst h; simp [List.countP_cons, hp]
    | succ i =>
      simp at h
      simp only [List.set_cons_succ, List.countP_cons]
      rw [ih h]

theorem answer_count (calls : List Call) (p : Parent) (r : Nat) :
    (answer calls p).countP (fun c => c.rpc = r) = calls.countP (fun c => c.rpc = r) := by
  unfold answer
  split
  · next c =>
    induction calls generalizing c with
    | nil => simp
    | cons a l ih =>
      cases c with
      | zero => simp [List.countP_cons]
      | succ c => simp only [List.modify_succ_cons, List.countP_cons]; rw [ih]
  · rfl

/-- What counts in the number of RPCs is worth what the step is. -/
theorem rpcsMade_step {cfg : Config} {s s' : State} {op : Op} (r : Nat)
    (hs : step cfg s op = some s') :
    rpcsMade s' r = rpcsMade s r + opWorth cfg (countRpc r) s op := by
  cases op with
  | start j a =>
    obtain ⟨job, x, hj, hx, hw, ho, hready, hd, rfl⟩ := step_start hs
    rfl
  | skip j a =>
    obtain ⟨job, x, hj, hx, hw, ho, hready, hd, rfl⟩ := step_skip hs
    unfold rpcsMade opWorth countRpc
    dsimp only
    split
    · exact answer_count _ _ _
    · rfl
  | iterate j a t =>
    obtain ⟨job, x, left, hj, hx, hw, hcase⟩ := step_iterate hs
    obtain ⟨deps, work, iters, parallel, responds, conditional, timed⟩ := x
    unfold rpcsMade opWorth
    dsimp only
    rw [hj]
    dsimp only
    rw [hx]
    rcases hcase with ⟨q, hq, ht, rfl⟩ | ⟨l, hl, rfl⟩ | ⟨hl, rfl⟩
    · dsimp only at hq
      subst hq
      dsimp only
      rw [List.countP_append, newCalls_count]
      simp [countRpc]
    · dsimp only at hl
      subst hl
      rfl
    · dsimp only at hl
      subst hl
      rfl
  | finish j a =>
    obtain ⟨job, x, hj, hx, hw, hopen, rfl⟩ := step_finish hs
    unfold rpcsMade opWorth countRpc
    dsimp only
    split
    · exact answer_count _ _ _
    · rfl
  | deliver c =>
    obtain ⟨q, hr, hst, rfl⟩ := step_deliver hs
    exact countP_set_same _ hr rfl
  | dispatch c =>
    obtain ⟨q, l, hr, hl, hst, hfree, rfl⟩ := step_dispatch hs
    exact countP_set_same _ hr rfl
  | endJob j =>
    obtain ⟨job, hj, ho, hall, rfl⟩ := step_endJob hs
    unfold rpcsMade opWorth countRpc
    dsimp only
    split
    · exact answer_count _ _ _
    · rfl
  | complete c =>
    obtain ⟨q, hr, hst, rfl⟩ := step_complete hs
    exact countP_set_same _ hr rfl

theorem opWorth_steps (cfg : Config) (s : State) (op : Op) : 1 ≤ opWorth cfg countSteps s op := by
  cases op <;> simp [opWorth, countSteps]

/-- The RPCs made and those that are left. -/
theorem rpcs_left {cfg : Config} {r : Nat} {E : Nat → Nat} {ops : List Op} {s : State}
    (hE : Predicts cfg r E) (h : TrafficRun cfg ops s) :
    rpcsMade s r + stateLeft cfg (countRpc r) E s ≤ (cfg.roots.map fun x => E x.2).sum ∧
      ((∀ j a, .skip j a ∉ ops) →
        rpcsMade s r + stateLeft cfg (countRpc r) E s = (cfg.roots.map fun x => E x.2).sum) := by
  have hG := predicts_iff.1 hE
  refine run_induction (P := fun ops s =>
    rpcsMade s r + stateLeft cfg (countRpc r) E s ≤ (cfg.roots.map fun x => E x.2).sum ∧
      ((∀ j a, .skip j a ∉ ops) →
        rpcsMade s r + stateLeft cfg (countRpc r) E s = (cfg.roots.map fun x => E x.2).sum)) ?_ ?_ h
  · have : rpcsMade (initial cfg) r = 0 := rfl
    rw [this, initial_left hG]
    simp
  · intro ops s op s' hrun ⟨h1, h2⟩ hs
    obtain ⟨h3, h4⟩ := step_left hG (inv_run hrun) hs
    have h5 := rpcsMade_step r hs
    constructor
    · omega
    · intro hn
      have := h2 (fun j a hm => hn j a (by simp [hm]))
      have := h4 (fun j a he => hn j a (by simp [he]))
      omega

theorem steps_left {cfg : Config} {G : Nat → Nat} {ops : List Op} {s : State}
    (hG : Solves cfg countSteps G) (h : TrafficRun cfg ops s) :
    ops.length + stateLeft cfg countSteps G s ≤ (cfg.roots.map fun x => G x.2).sum := by
  refine run_induction (P := fun ops s =>
    ops.length + stateLeft cfg countSteps G s ≤ (cfg.roots.map fun x => G x.2).sum) ?_ ?_ h
  · rw [initial_left hG]
    simp
  · intro ops s op s' hrun h1 hs
    obtain ⟨h3, _⟩ := step_left hG (inv_run hrun) hs
    have := opWorth_steps cfg s op
    rw [List.length_append, List.length_singleton]
    omega

/-- Without predicates nothing is skipped. -/
theorem no_skip_step {cfg : Config} {op : Op} {s s' : State} (hu : Unconditional cfg)
    (h2 : ∀ k ∈ s.jobs, ∀ (a : Nat), k.acts[a]? ≠ some .skipped) (hs : step cfg s op = some s') :
    (∀ j a, op ≠ .skip j a) ∧ ∀ k ∈ s'.jobs, ∀ (a : Nat), k.acts[a]? ≠ some .skipped := by
  have hnew : ∀ e l p (a : Nat), (newJob cfg e l p).acts[a]? ≠ some .skipped := by
    intro e l p a ha
    have := newJob_acts ha
    cases this
  have hset : ∀ {job : Job} {a : Nat} {z : Act}, (∀ (b : Nat), job.acts[b]? ≠ some .skipped) → z ≠ .skipped →
      ∀ (b : Nat), (job.acts.set a z)[b]? ≠ some .skipped := by
    intro job a z h1 h2 b hb
    rcases set_get hb with ⟨_, he⟩ | ⟨_, hb⟩
    · exact h2 he.symm
    · exact h1 b hb
  have hjobs : ∀ {jobs : List Job} {j : Nat} {k' : Job}, (∀ k ∈ jobs, ∀ (a : Nat), k.acts[a]? ≠ some .skipped) →
      (∀ (a : Nat), k'.acts[a]? ≠ some .skipped) →
      ∀ k ∈ jobs.set j k', ∀ (a : Nat), k.acts[a]? ≠ some .skipped := by
    intro jobs j k' h1 h2 k hk
    rcases List.mem_or_eq_of_mem_set hk with hk | rfl
    · exact h1 k hk
    · exact h2
  have hsk : ∀ j a, op ≠ .skip j a := by
    rintro j a rfl
    obtain ⟨job, x, hj, hx, hw, ho, hready, hd, rfl⟩ := step_skip hs
    rcases hd with hd | hd
    · unfold dropped at hd
      rw [List.any_eq_true] at hd
      obtain ⟨d, _, he⟩ := hd
      exact h2 job (List.mem_of_getElem? hj) d (by simpa using he)
    · rw [hu job.list x (List.mem_of_getElem? hx)] at hd
      cases hd
  refine ⟨hsk, ?_⟩
  cases op with
  | start j a =>
    obtain ⟨job, x, hj, hx, hw, ho, hready, hd, rfl⟩ := step_start hs
    exact hjobs h2 (hset (h2 job (List.mem_of_getElem? hj)) (by simp))
  | skip j a => exact absurd rfl (hsk j a)
  | iterate j a t =>
    obtain ⟨job, x, left, hj, hx, hw, hcase⟩ := step_iterate hs
    have hb := hjobs (j := j) (k' := { job with acts := job.acts.set a (.running left) }) h2
      (hset (h2 job (List.mem_of_getElem? hj)) (by simp))
    rcases hcase with ⟨q, hq, ht, rfl⟩ | ⟨l, hl, rfl⟩ | ⟨hl, rfl⟩
    · exact hb
    · intro k hk
      rcases List.mem_append.1 hk with hk | hk
      · exact hb k hk
      · simp at hk
        subst hk
        exact hnew _ _ _
    · exact hb
  | finish j a =>
    obtain ⟨job, x, hj, hx, hw, hopen, rfl⟩ := step_finish hs
    exact hjobs h2 (hset (h2 job (List.mem_of_getElem? hj)) (by simp))
  | deliver c =>
    obtain ⟨q, hr, hst, rfl⟩ := step_deliver hs
    exact h2
  | dispatch c =>
    obtain ⟨q, l, hr, hl, hst, hfree, rfl⟩ := step_dispatch hs
    intro k hk
    rcases List.mem_append.1 hk with hk | hk
    · exact h2 k hk
    · simp at hk
      subst hk
      exact hnew _ _ _
  | endJob j =>
    obtain ⟨job, hj, ho, hall, rfl⟩ := step_endJob hs
    exact hjobs h2 (h2 job (List.mem_of_getElem? hj))
  | complete c =>
    obtain ⟨q, hr, hst, rfl⟩ := step_complete hs
    exact h2

theorem no_skip {cfg : Config} {ops : List Op} {s : State} (hu : Unconditional cfg)
    (h : TrafficRun cfg ops s) :
    (∀ j a, .skip j a ∉ ops) ∧ ∀ k ∈ s.jobs, ∀ (a : Nat), k.acts[a]? ≠ some .skipped := by
  refine run_induction (P := fun ops s => (∀ j a, .skip j a ∉ ops) ∧
    ∀ k ∈ s.jobs, ∀ (a : Nat), k.acts[a]? ≠ some .skipped) ?_ ?_ h
  · refine ⟨by simp, ?_⟩
    intro k hk
    obtain ⟨r, _, rfl⟩ := List.mem_map.1 hk
    intro a ha
    have := newJob_acts ha
    cases this
  · intro ops s op s' hrun ⟨h1, h2⟩ hs
    obtain ⟨h3, h4⟩ := no_skip_step hu h2 hs
    refine ⟨?_, h4⟩
    intro j a hm
    rcases List.mem_append.1 hm with hm | hm
    · exact h1 j a hm
    · simp at hm
      exact h3 j a hm.symm

end Distbench.Traffic
