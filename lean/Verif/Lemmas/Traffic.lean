import Verif.Spec.Traffic

/-! Lemmas for Props/Traffic.lean: runs, and work that is left. -/

namespace Distbench.Traffic
open Spec

/-! ### Runs -/

theorem run_append (cfg : Config) (s : State) (a b : List Op) :
    run cfg s (a ++ b) = match run cfg s a with
      | none => none
      | some s' => run cfg s' b := by
  induction a generalizing s with
  | nil => rfl
  | cons op a ih =>
    rw [List.cons_append, run, run]
    cases h : step cfg s op with
    | none => rfl
    | some s' => exact ih s'

theorem snoc {cfg : Config} {s0 s : State} {ops : List Op} {op : Op} :
    run cfg s0 (ops ++ [op]) = some s ↔ ∃ s1, run cfg s0 ops = some s1 ∧ step cfg s1 op = some s := by
  rw [run_append]
  cases h : run cfg s0 ops with
  | none => simp
  | some s1 =>
    dsimp only
    rw [run]
    cases h1 : step cfg s1 op with
    | none => simp [h1]
    | some s2 => simp [run, h1]

/-- What holds at the start and after each step holds of every run. -/
theorem run_induction {cfg : Config} {P : List Op → State → Prop} (h0 : P [] (initial cfg))
    (h1 : ∀ ops s op s', TrafficRun cfg ops s → P ops s → step cfg s op = some s' → P (ops ++ [op]) s')
    {ops : List Op} {s : State} (h : TrafficRun cfg ops s) : P ops s := by
  have : ∀ r : List Op, ∀ s, TrafficRun cfg r.reverse s → P r.reverse s := by
    intro r
    induction r with
    | nil =>
      intro s hs
      have hs : some (initial cfg) = some s := hs
      cases hs
      exact h0
    | cons op r ih =>
      intro s hs
      rw [List.reverse_cons] at hs ⊢
      obtain ⟨s1, h2, h3⟩ := snoc.1 hs
      exact h1 _ _ _ _ h2 (ih s1 h2) h3
  have h' := this ops.reverse s
  rw [List.reverse_reverse] at h'
  exact h' h

/-! ### Sums over lists -/

theorem sum_set {α : Type} (f : α → Nat) {l : List α} {i : Nat} {x : α} (y : α) (h : l[i]? = some x) :
    ((l.set i y).map f).sum + f x = (l.map f).sum + f y := by
  induction l generalizing i with
  | nil => simp at h
  | cons a l ih =>
    cases i with
    | zero =>
      simp at h
      subst h
      simp
      omega
    | succ i =>
      simp at h
      have := ih h
      simp only [List.set_cons_succ, List.map_cons, List.sum_cons]
      omega

theorem zip_sum_set {α β : Type} (f : α → β → Nat) {l : List α} {m : List β} {i : Nat} {x : α} {y : β}
    (z : β) (h : l[i]? = some x) (h' : m[i]? = some y) :
    (List.zipWith f l (m.set i z)).sum + f x y = (List.zipWith f l m).sum + f x z := by
  induction l generalizing i m with
  | nil => simp at h
  | cons a l ih =>
    cases m with
    | nil => simp at h'
    | cons b m =>
      cases i with
      | zero =>
        simp at h h'
        subst h h'
        simp
        omega
      | succ i =>
        simp at h h'
        have := ih h h'
        simp only [List.set_cons_succ, List.zipWith_cons_cons, List.sum_cons]
        omega

theorem sum_modify {α : Type} (f : α → Nat) (g : α → α) {l : List α} {i : Nat} {x : α}
    (h : l[i]? = some x) : ((l.modify i g).map f).sum + f x = (l.map f).sum + f (g x) := by
  have : l.modify i g = l.set i (g x) := by
    apply List.ext_getElem?
    intro k
    rw [List.getElem?_modify, List.getElem?_set]
    by_cases hk : i = k
    · subst hk
      rw [h]
      have : i < l.length := (List.getElem?_eq_some_iff.1 h).1
      simp [this]
    · simp [hk]
  rw [this]
  exact sum_set f _ h

/-! ### Steps -/

theorem startable_some {cfg : Config} {s : State} {j a : Nat} {job : Job} {x : Action}
    (h : startable cfg s j a = some (job, x)) :
    s.jobs[j]? = some job ∧ (cfg.actions job.list)[a]? = some x ∧ job.acts[a]? = some .waiting ∧
      job.over = false ∧ ready job x = true := by
  unfold startable at h
  split at h
  · cases h
  · next k hk =>
    split at h
    · cases h
    · next y hy =>
      split at h
      · next hg =>
        simp only [Option.some.injEq, Prod.mk.injEq] at h
        obtain ⟨rfl, rfl⟩ := h
        exact ⟨hk, hy, hg.1, hg.2.1, hg.2.2⟩
      · cases h

theorem step_start {cfg : Config} {s s' : State} {j a : Nat} (h : step cfg s (.start j a) = some s') :
    ∃ job x, s.jobs[j]? = some job ∧ (cfg.actions job.list)[a]? = some x ∧
      job.acts[a]? = some .waiting ∧ job.over = false ∧ ready job x = true ∧ dropped job x = false ∧
      s' = { s with
        jobs := s.jobs.set j
          { job with acts := job.acts.set a (.running x.iters), early := designate cfg job x a } } := by
  rw [step] at h
  split at h
  · cases h
  · next job x hx =>
    split at h
    · cases h
    · next hd =>
      cases h
      obtain ⟨h1, h2, h3, h4, h5⟩ := startable_some hx
      exact ⟨job, x, h1, h2, h3, h4, h5, by simpa using hd, rfl⟩

theorem step_skip {cfg : Config} {s s' : State} {j a : Nat} (h : step cfg s (.skip j a) = some s') :
    ∃ job x, s.jobs[j]? = some job ∧ (cfg.actions job.list)[a]? = some x ∧
      job.acts[a]? = some .waiting ∧ job.over = false ∧ ready job x = true ∧
      (dropped job x = true ∨ x.conditional = true) ∧
      s' = { jobs := s.jobs.set j
               { job with acts := job.acts.set a .skipped, early := designate cfg job x a },
             calls := if designate cfg job x a = some a then answer s.calls job.parent else s.calls } := by
  rw [step] at h
  split at h
  · cases h
  · next job x hx =>
    split at h
    · next hd =>
      cases h
      obtain ⟨h1, h2, h3, h4, h5⟩ := startable_some hx
      exact ⟨job, x, h1, h2, h3, h4, h5, hd, rfl⟩
    · cases h

theorem step_iterate {cfg : Config} {s s' : State} {j a : Nat} {targets : List Nat}
    (h : step cfg s (.iterate j a targets) = some s') :
    ∃ job x left, s.jobs[j]? = some job ∧ (cfg.actions job.list)[a]? = some x ∧
      job.acts[a]? = some (.running (left + 1)) ∧
      ((∃ q, x.work = .rpc q targets.length ∧ (∀ t ∈ targets, cfg.servers q t = true) ∧
          s' = { jobs := s.jobs.set j { job with acts := job.acts.set a (.running left) },
                 calls := s.calls ++ newCalls q j a left targets }) ∨
        (∃ l, x.work = .list l ∧
          s' = { s with
            jobs := s.jobs.set j { job with acts := job.acts.set a (.running left) } ++
              [newJob cfg job.engine l (.action j a left)] }) ∨
        (x.work = .other ∧
          s' = { s with jobs := s.jobs.set j { job with acts := job.acts.set a (.running left) } })) := by
  rw [step] at h
  split at h
  · cases h
  · next job hj =>
    split at h
    · next x left hx hl =>
      split at h
      · split at h
        · next q fan hw =>
          split at h
          · next hg =>
            cases h
            refine ⟨job, x, left, hj, hx, hl, .inl ⟨q, by rw [hw, hg.1], ?_, rfl⟩⟩
            simpa using hg.2
          · cases h
        · next l hw =>
          split at h
          · cases h
            exact ⟨job, x, left, hj, hx, hl, .inr (.inl ⟨l, hw, rfl⟩)⟩
          · cases h
        · next hw =>
          split at h
          · cases h
            exact ⟨job, x, left, hj, hx, hl, .inr (.inr ⟨hw, rfl⟩)⟩
          · cases h
      · cases h
    · cases h

theorem step_finish {cfg : Config} {s s' : State} {j a : Nat} (h : step cfg s (.finish j a) = some s') :
    ∃ job x, s.jobs[j]? = some job ∧ (cfg.actions job.list)[a]? = some x ∧
      job.acts[a]? = some (.running 0) ∧ openIterations s j a x.iters = 0 ∧
      s' = { jobs := s.jobs.set j { job with acts := job.acts.set a .finished },
             calls := if job.early = some a then answer s.calls job.parent else s.calls } := by
  rw [step] at h
  split at h
  · cases h
  · next job hj =>
    split at h
    · next x hx hl =>
      split at h
      · next ho =>
        cases h
        exact ⟨job, x, hj, hx, hl, ho, rfl⟩
      · cases h
    · cases h

theorem step_deliver {cfg : Config} {s s' : State} {c : Nat} (h : step cfg s (.deliver c) = some s') :
    ∃ r, s.calls[c]? = some r ∧ r.stage = .sent ∧
      s' = { s with
        calls := s.calls.set c ({ r with
          stage := match cfg.handler r.rpc with | none => .answered | some _ => .queued } : Call) } := by
  rw [step] at h
  split at h
  · cases h
  · next r hr =>
    split at h
    · next hs =>
      refine ⟨r, hr, hs, ?_⟩
      split at h <;> next hh => cases h; rw [hh]
    · cases h

theorem step_dispatch {cfg : Config} {s s' : State} {c : Nat} (h : step cfg s (.dispatch c) = some s') :
    ∃ r l, s.calls[c]? = some r ∧ cfg.handler r.rpc = some l ∧ r.stage = .queued ∧
      freeThread cfg s r.target = true ∧
      s' = { jobs := s.jobs ++ [newJob cfg r.target l (.call c)],
             calls := s.calls.set c { r with stage := .running } } := by
  rw [step] at h
  split at h
  · cases h
  · next r hr =>
    split at h
    · cases h
    · next l hl =>
      split at h
      · next hg =>
        cases h
        exact ⟨r, l, hr, hl, hg.1, hg.2, rfl⟩
      · cases h

theorem step_endJob {cfg : Config} {s s' : State} {j : Nat} (h : step cfg s (.endJob j) = some s') :
    ∃ job, s.jobs[j]? = some job ∧ job.over = false ∧ (∀ x ∈ job.acts, x.ended = true) ∧
      s' = { jobs := s.jobs.set j { job with over := true },
             calls := if job.early = none then answer s.calls job.parent else s.calls } := by
  rw [step] at h
  split at h
  · cases h
  · next job hj =>
    split at h
    · next hg =>
      cases h
      exact ⟨job, hj, hg.1, by simpa using hg.2, rfl⟩
    · cases h

theorem step_complete {cfg : Config} {s s' : State} {c : Nat} (h : step cfg s (.complete c) = some s') :
    ∃ r, s.calls[c]? = some r ∧ r.stage = .answered ∧
      s' = { s with calls := s.calls.set c { r with stage := .completed } } := by
  rw [step] at h
  split at h
  · cases h
  · next r hr =>
    split at h
    · next hs =>
      cases h
      exact ⟨r, hr, hs, rfl⟩
    · cases h

/-! ### Work that is left -/

/-- What each kind of step is worth. -/
structure Weights where
  job : Nat
  start : Nat
  iter : Nat
  fin : Nat
  call : Nat → Nat
  deliver : Nat
  dispatch : Nat
  complete : Nat

/-- What an RPC that was made will still be worth. -/
def callLeft (cfg : Config) (w : Weights) (G : Nat → Nat) (q : Nat) : Stage → Nat
  | .sent => w.deliver + (match cfg.handler q with | none => 0 | some l => w.dispatch + G l) + w.complete
  | .queued => (match cfg.handler q with | none => 0 | some l => w.dispatch + G l) + w.complete
  | .running => w.complete
  | .answered => w.complete
  | .completed => 0

/-- What an iteration is worth, with all that it leads to. -/
def iterWorth (cfg : Config) (w : Weights) (G : Nat → Nat) (x : Action) : Nat :=
  w.iter + match x.work with
    | .rpc q fan => fan * (w.call q + callLeft cfg w G q .sent)
    | .list l => G l
    | .other => 0

def actLeft (cfg : Config) (w : Weights) (G : Nat → Nat) (x : Action) : Act → Nat
  | .waiting => w.start + x.iters * iterWorth cfg w G x + w.fin
  | .running left => left * iterWorth cfg w G x + w.fin
  | .finished => 0
  | .skipped => 0

/-- `G l` is what a run of the list `l` is worth, with all that it leads to. -/
def Solves (cfg : Config) (w : Weights) (G : Nat → Nat) : Prop :=
  ∀ l, G l = w.job + ((cfg.actions l).map fun x => actLeft cfg w G x .waiting).sum

def jobLeft (cfg : Config) (w : Weights) (G : Nat → Nat) (k : Job) : Nat :=
  (if k.over then 0 else w.job) + (List.zipWith (actLeft cfg w G) (cfg.actions k.list) k.acts).sum

def stateLeft (cfg : Config) (w : Weights) (G : Nat → Nat) (s : State) : Nat :=
  (s.jobs.map (jobLeft cfg w G)).sum + (s.calls.map fun c => callLeft cfg w G c.rpc c.stage).sum

/-- What a step is worth. -/
def opWorth (cfg : Config) (w : Weights) (s : State) : Op → Nat
  | .start _ _ => w.start
  | .skip _ _ => w.start
  | .iterate j a targets => w.iter +
      match s.jobs[j]? with
      | none => 0
      | some job =>
        match (cfg.actions job.list)[a]? with
        | some { work := .rpc q _, .. } => targets.length * w.call q
        | _ => 0
  | .finish _ _ => w.fin
  | .deliver _ => w.deliver
  | .dispatch _ => w.dispatch
  | .endJob _ => w.job
  | .complete _ => w.complete

theorem newJob_left {cfg : Config} {w : Weights} {G : Nat → Nat} (h : Solves cfg w G) (e l : Nat)
    (p : Parent) : jobLeft cfg w G (newJob cfg e l p) = G l := by
  rw [h l]
  unfold jobLeft newJob
  simp only [Bool.false_eq_true, if_false]
  congr 1
  induction cfg.actions l with
  | nil => rfl
  | cons x xs ih => simp [ih]

theorem answer_left {cfg : Config} {w : Weights} {G : Nat → Nat} (calls : List Call) (p : Parent)
    (h : ∀ c r, p = .call c → calls[c]? = some r → r.stage = .running) :
    ((answer calls p).map fun c => callLeft cfg w G c.rpc c.stage).sum =
      (calls.map fun c => callLeft cfg w G c.rpc c.stage).sum := by
  unfold answer
  split
  · next c =>
    cases hc : calls[c]? with
    | none =>
      have hn : calls.length ≤ c := by
        apply Classical.byContradiction
        intro hlt
        rw [List.getElem?_eq_getElem (by omega)] at hc
        cases hc
      congr 2
      apply List.ext_getElem?
      intro k
      rw [List.getElem?_modify]
      by_cases hk : c = k
      · subst hk; simp [hc]
      · simp [hk]
    | some r =>
      have hr := h c r rfl hc
      have := sum_modify (fun c => callLeft cfg w G c.rpc c.stage)
        (fun r => { r with stage := .answered }) hc
      dsimp only at this
      rw [hr] at this
      simp only [callLeft] at this
      exact Nat.add_right_cancel this
  · rfl

end Distbench.Traffic
