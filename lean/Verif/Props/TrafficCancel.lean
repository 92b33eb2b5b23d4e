import Verif.Props.Traffic
import Verif.Lemmas.TrafficDrain

/-! The cancellation of a whole test: what still begins, that it ends, and what it refuses. -/

namespace Distbench.Traffic
open Spec

/-! ### Examples -/

/-- A test whose RPCs go round for ever: list 0 makes five RPCs, two at a time, and then something else;
each is handled by list 1, which makes the same RPC again, and has another action after that. -/
def ringCfg : Config :=
  { actions := fun
      | 0 => [{ work := .rpc 0 1, iters := 5, parallel := 2 }, { work := .other, deps := [0] }]
      | 1 => [{ work := .rpc 0 1 }, { work := .list 2, deps := [0] }]
      | 2 => [{ work := .other }]
      | _ => []
    handler := fun q => if q = 0 then some 1 else none
    servers := fun _ t => t == 1
    threads := fun _ => none
    roots := [(0, 0)] }

/-- Both engines are cancelled while the second RPC is handled; the third one is refused. -/
def ringStart : List COp :=
  [.base (.start 0 0), .base (.iterate 0 0 [1]), .base (.deliver 0), .base (.dispatch 0),
   .base (.start 1 0), .base (.iterate 1 0 [1]), .base (.deliver 1), .base (.dispatch 1),
   .cancel 0, .cancel 1, .base (.start 2 0), .base (.iterate 2 0 [1]), .expire 1, .expire 0]

def ringRest : List COp :=
  [.refuse 2, .base (.complete 2), .base (.finish 2 0), .leave 2, .base (.endJob 2), .base (.complete 1),
   .base (.iterate 0 0 [1]), .refuse 3, .base (.complete 3),
   .base (.finish 1 0), .base (.start 1 1), .base (.iterate 1 1 []), .leave 3, .base (.endJob 3),
   .base (.finish 1 1), .base (.endJob 1), .base (.complete 0), .stop 0 0, .leave 0, .base (.endJob 0)]

def ringMid : CState := (crun ringCfg { base := initial ringCfg } ringStart).getD { base := { jobs := [] } }
def ringEnd : CState := (crun ringCfg ringMid ringRest).getD { base := { jobs := [] } }

theorem ring_mid : CancelRun ringCfg ringStart ringMid := by
  unfold CancelRun ringMid
  rfl

theorem ring_end : crun ringCfg ringMid ringRest = some ringEnd := by
  unfold ringEnd
  rfl

theorem ring_run : CancelRun ringCfg (ringStart ++ ringRest) ringEnd := by
  unfold CancelRun
  rw [crun_append, show crun ringCfg { base := initial ringCfg } ringStart = some ringMid from ring_mid]
  exact ring_end

theorem ring_over : TrafficOver ringEnd.base := by
  refine ⟨?_, ?_⟩ <;> decide +kernel

theorem ring_refuse : AllRefuse ringCfg ringMid := by
  rintro e (⟨l, h⟩ | ⟨q, h⟩)
  · simp [ringCfg] at h
    rw [h.1]
    decide +kernel
  · simp [ringCfg] at h
    rw [h]
    decide +kernel

theorem ring_sensible : Sensible ringCfg := by
  intro l a x hx
  match l, a with
  | 0, 0 => cases hx; exact ⟨by simp, by simp, fun q f h => by cases h; exact ⟨1, rfl⟩⟩
  | 0, 1 => cases hx; exact ⟨by simp, by simp, fun q f h => by cases h⟩
  | 1, 0 => cases hx; exact ⟨by simp, by simp, fun q f h => by cases h; exact ⟨1, rfl⟩⟩
  | 1, 1 => cases hx; exact ⟨by simp, by simp, fun q f h => by cases h⟩
  | 2, 0 => cases hx; exact ⟨by simp, by simp, fun q f h => by cases h⟩
  | 0, _ + 2 => cases hx
  | 1, _ + 2 => cases hx
  | 2, _ + 1 => cases hx
  | _ + 3, _ => cases hx

theorem ring_nest : NestLevels ringCfg (fun l => 2 - l) := by
  intro l x hx l' hl
  match l with
  | 0 =>
    simp [ringCfg] at hx
    rcases hx with rfl | rfl <;> cases hl
  | 1 =>
    simp [ringCfg] at hx
    rcases hx with rfl | rfl
    · cases hl
    · cases hl; decide
  | 2 =>
    simp [ringCfg] at hx
    subst hx
    cases hl
  | n + 3 => cases hx

/-! ### How many iterations a cancelled action still begins (C232) -/

/-- Once its engine is cancelled, an action of a run of a list begins at most as many iterations as may run
at a time, whatever the number of iterations it was to make. -/
theorem C232_bound {cfg : Config} {ops ops' : List COp} {s s' : CState} {j a : Nat} {job : Job} {x : Action}
    (h : CancelRun cfg ops s) (h' : crun cfg s ops' = some s') (hj : s'.base.jobs[j]? = some job)
    (hx : (cfg.actions job.list)[a]? = some x) (hc : s.cancelled job.engine = true) :
    iterationsBegun ops' j a ≤ x.parallel := by
  have hI' := inv_crun (inv_cancel h) h'
  have hlt : a < job.acts.length := by
    rw [hI'.len j job hj]
    exact (List.getElem?_eq_some_iff.1 hx).1
  have := ((begun_budget (inv_cancel h) h').2.2 j a job x job.acts[a] hj hc hx
    (List.getElem?_eq_getElem hlt)).1
  omega

example : iterationsBegun ringRest 0 0 ≤ 2 :=
  C232_bound (job := { engine := 0, list := 0, parent := .root, acts := [.finished, .skipped], over := true })
    (x := { work := .rpc 0 1, iters := 5, parallel := 2 }) ring_mid ring_end (by decide +kernel) rfl
    (by decide +kernel)

/-- An action that was running begins only what it has not begun of these: if as many have begun as may run
at a time, then none. -/
theorem C232_rest {cfg : Config} {ops ops' : List COp} {s s' : CState} {j a left : Nat} {job : Job}
    {x : Action} (h : CancelRun cfg ops s) (h' : crun cfg s ops' = some s')
    (hj : s.base.jobs[j]? = some job) (hx : (cfg.actions job.list)[a]? = some x)
    (hc : s.cancelled job.engine = true) (hr : job.acts[a]? = some (.running left)) :
    iterationsBegun ops' j a ≤ x.parallel - (x.iters - left) := by
  have hI := inv_cancel h
  have hlen : ∀ {ops : List COp} {s1 : CState}, crun cfg s ops = some s1 →
      ∃ job1, s1.base.jobs[j]? = some job1 ∧ job1.list = job.list ∧ job1.engine = job.engine := by
    intro ops s1 hrun
    refine crun_induction (P := fun _ s1 => ∃ job1, s1.base.jobs[j]? = some job1 ∧ job1.list = job.list ∧
      job1.engine = job.engine) ⟨job, hj, rfl, rfl⟩ ?_ hrun
    intro ops s1 op s2 _ ⟨job1, g1, g2, g3⟩ hs
    have hlt : j < s2.base.jobs.length :=
      Nat.lt_of_lt_of_le (List.getElem?_eq_some_iff.1 g1).1 (jobs_grow hs)
    have hsome : s2.base.jobs[j]? = some s2.base.jobs[j] := List.getElem?_eq_getElem hlt
    rcases cstep_job hs hsome with ⟨hn, _⟩ | ⟨job0, k1, k2, k3, _⟩
    · rw [g1] at hn; cases hn
    · rw [g1] at k1
      cases k1
      exact ⟨_, hsome, by rw [k2, g2], by rw [k3, g3]⟩
  obtain ⟨job', hj', hl, he⟩ := hlen h'
  have hI' := inv_crun hI h'
  have hlt : a < job'.acts.length := by
    rw [hI'.len j job' hj', hl]
    exact (List.getElem?_eq_some_iff.1 hx).1
  have := ((begun_budget hI h').2.2 j a job' x job'.acts[a] hj' (by rw [he]; exact hc) (by rw [hl]; exact hx)
    (List.getElem?_eq_getElem hlt)).2 job (.running left) hj hr
  simp only [budget] at this
  omega

example : iterationsBegun ringRest 0 0 ≤ 1 :=
  C232_rest (left := 4)
    (job := { engine := 0, list := 0, parent := .root, acts := [.running 4, .waiting] })
    (x := { work := .rpc 0 1, iters := 5, parallel := 2 }) ring_mid ring_end (by decide +kernel) rfl
    (by decide +kernel) (by decide +kernel)

/-! ### Cancelled traffic ends (C233) -/

/-- Once all engines are cancelled and their grace periods are over, the traffic ends after a number of
steps that depends on the lists that are running and the RPCs that are on their way, and on how many
iterations may run at a time, but not on how many were to be made. -/
theorem C233_ends_partial {cfg : Config} {D : Nat → Nat} {ops ops' : List COp} {s s' : CState}
    (hD : Drains cfg D) (h : CancelRun cfg ops s) (hall : AllRefuse cfg s)
    (h' : crun cfg s ops' = some s') : trafficSteps ops' ≤ drainBound cfg D s.base := by
  have h1 := drain_run hD (inv_cancel h) hall h'
  have h2 := stateDrain_le hD (inv_cancel h)
  omega

/-- There is such a bound if no list runs itself, even if RPCs go round for ever. -/
theorem C233_exists_partial {cfg : Config} {level : Nat → Nat} (h : NestLevels cfg level) :
    ∃ D, Drains cfg D :=
  ⟨_, drains_levels h⟩

example : ∃ D, ∀ ops' s', crun ringCfg ringMid ops' = some s' →
    trafficSteps ops' ≤ drainBound ringCfg D ringMid.base := by
  obtain ⟨D, hD⟩ := C233_exists_partial ring_nest
  exact ⟨D, fun _ _ h' => C233_ends_partial hD ring_mid ring_refuse h'⟩

/-- A list that runs itself. -/
def nestCfg : Config :=
  { actions := fun l => if l = 0 then [{ work := .list 0 }] else []
    handler := fun _ => none
    servers := fun _ _ => false
    threads := fun _ => none
    roots := [(0, 0)] }

/-- `n` runs of the list, each within the one before. -/
def nestState (n : Nat) : CState :=
  { base :=
      { jobs := (List.range n).map (fun i =>
          { engine := 0, list := 0, parent := if i = 0 then .root else .action (i - 1) 0 0,
            acts := [.running 0], early := some 0 }) ++
          [{ engine := 0, list := 0, parent := if n = 0 then .root else .action (n - 1) 0 0,
             acts := [.waiting] }] }
    cancelled := fun i => i == 0
    refusing := fun i => i == 0 }

def nestOps : Nat → List COp
  | 0 => []
  | n + 1 => nestOps n ++ [.base (.start n 0), .base (.iterate n 0 [])]

theorem countP_zero_range {n : Nat} {p : Nat → Bool} (h : ∀ i, i < n → p i = false) :
    (List.range n).countP p = 0 := by
  rw [List.countP_eq_zero]
  intro i hi
  rw [h i (by simpa using hi)]
  simp

theorem nest_step (n : Nat) :
    crun nestCfg (nestState n) [.base (.start n 0), .base (.iterate n 0 [])] = some (nestState (n + 1)) := by
  have hlen : ((List.range n).map (fun i => ({
      engine := 0, list := 0, parent := if i = 0 then .root else .action (i - 1) 0 0,
      acts := [.running 0], early := some 0 } : Job))).length = n := by simp
  generalize hpre : (List.range n).map (fun i => ({
      engine := 0, list := 0, parent := if i = 0 then .root else .action (i - 1) 0 0,
      acts := [.running 0], early := some 0 } : Job)) = pre at hlen
  generalize hp : (if n = 0 then Parent.root else .action (n - 1) 0 0) = p
  have hs : nestState n =
      { base := { jobs := pre ++ [{ engine := 0, list := 0, parent := p, acts := [.waiting] }] }
        cancelled := fun i => i == 0
        refusing := fun i => i == 0 } := by
    unfold nestState
    rw [hpre, hp]
  have hs' : nestState (n + 1) =
      { base := { jobs := pre ++ [{ engine := 0, list := 0, parent := p, acts := [.running 0], early := some 0 },
          { engine := 0, list := 0, parent := .action n 0 0, acts := [.waiting] }] }
        cancelled := fun i => i == 0
        refusing := fun i => i == 0 } := by
    unfold nestState
    rw [List.range_succ, List.map_append, hpre]
    simp [hp]
  have hno : ∀ k ∈ pre, k.parent ≠ .action n 0 0 := by
    intro k hk
    rw [← hpre] at hk
    obtain ⟨i, hi, rfl⟩ := List.mem_map.1 hk
    dsimp only
    split
    · simp
    · simp at hi
      simp
      omega
  have hpn : p ≠ .action n 0 0 := by
    rw [← hp]
    split
    · simp
    · simp
      omega
  have hget : ∀ (k : Job) (rest : List Job), (pre ++ k :: rest)[n]? = some k := by
    intro k rest
    rw [List.getElem?_append_right (by omega)]
    simp [hlen]
  have hset : ∀ (k k' : Job), (pre ++ [k]).set n k' = pre ++ [k'] := by
    intro k k'
    rw [List.set_append_right _ _ (by omega)]
    simp [hlen]
  have h1 : cstep nestCfg (nestState n) (.base (.start n 0)) = some
      { base := { jobs := pre ++ [{ engine := 0, list := 0, parent := p, acts := [.running 1], early := some 0 }] }
        cancelled := fun i => i == 0
        refusing := fun i => i == 0 } := by
    rw [hs]
    rw [cstep, if_pos (show allowed nestCfg _ (.start n 0) = true from rfl)]
    dsimp only
    rw [step]
    unfold startable
    dsimp only
    rw [hget]
    dsimp only [nestCfg]
    simp [ready, dropped, designate, hset]
  have h2 : cstep nestCfg
      { base := { jobs := pre ++ [{ engine := 0, list := 0, parent := p, acts := [.running 1], early := some 0 }] }
        cancelled := fun i => i == 0
        refusing := fun i => i == 0 } (.base (.iterate n 0 [])) = some (nestState (n + 1)) := by
    have hopen : openIterations
        { jobs := pre ++ [{ engine := 0, list := 0, parent := p, acts := [.running 1], early := some 0 }] }
        n 0 1 = 0 := by
      unfold openIterations
      apply countP_zero_range
      intro i hi
      have : i = 0 := by omega
      subst this
      unfold busy
      simp
      refine ⟨?_, ?_⟩
      · intro k hk he
        exact absurd he (hno k hk)
      · intro he
        exact absurd he hpn
    rw [hs', cstep, if_pos]
    · dsimp only
      rw [step]
      dsimp only
      rw [hget]
      simp [nestCfg, hopen, hset, newJob]
    · unfold allowed
      dsimp only
      rw [hget]
      simp [nestCfg]
  rw [crun, h1]
  dsimp only
  rw [crun, h2]
  rfl

theorem nest_run (n : Nat) : crun nestCfg (nestState 0) (nestOps n) = some (nestState n) := by
  induction n with
  | zero => rfl
  | succ n ih =>
    rw [nestOps, crun_append, ih]
    exact nest_step n

theorem nest_length (n : Nat) : trafficSteps (nestOps n) = 2 * n := by
  induction n with
  | zero => rfl
  | succ n ih =>
    rw [nestOps]
    unfold trafficSteps at ih ⊢
    rw [List.countP_append, ih]
    simp
    omega

/-- A list that runs itself goes on for ever, although its engine is cancelled. -/
theorem C233_negation : ∃ cfg ops s, CancelRun cfg ops s ∧ AllRefuse cfg s ∧
    ∀ n, ∃ ops' s', crun cfg s ops' = some s' ∧ n ≤ trafficSteps ops' := by
  refine ⟨nestCfg, [.cancel 0, .expire 0], nestState 0, ?_, ?_, ?_⟩
  · unfold CancelRun
    simp [crun, cstep, nestState, initial, nestCfg, newJob]
  · rintro e (⟨l, h⟩ | ⟨q, h⟩)
    · simp [nestCfg] at h
      rw [h.1]
      exact ⟨rfl, rfl⟩
    · cases h
  · intro n
    exact ⟨nestOps n, nestState n, nest_run n, by rw [nest_length]; omega⟩

/-! ### Cancelled traffic does not get stuck (C234) -/

/-- Whenever and wherever a test was cancelled, when nothing more can happen all its lists are over and all
its RPCs are back, provided that engines whose handlers share a limited number of threads are only called
from higher layers. -/
theorem C234_stuck_partial {cfg : Config} {layer : Nat → Nat} {ops : List COp} {s : CState}
    (hs : Sensible cfg) (hy : Layered cfg layer) (hz : ∀ e, cfg.threads e ≠ some 0)
    (h : CancelRun cfg ops s) (hstuck : CancelStuck cfg s) : TrafficOver s.base :=
  cancel_over hs hy hz (inv_cancel h) hstuck

theorem ring_stuck : CancelStuck ringCfg ringEnd := by
  intro op hop
  cases op with
  | cancel e => exact absurd rfl (hop e).1
  | expire e => exact absurd rfl (hop e).2
  | base op =>
    have h : step ringCfg ringEnd.base op = none := by
      have he : ringEnd.base =
          { jobs := [
              { engine := 0, list := 0, parent := .root, acts := [.finished, .skipped], over := true },
              { engine := 1, list := 1, parent := .call 0, acts := [.finished, .finished], over := true },
              { engine := 1, list := 1, parent := .call 1, acts := [.finished, .skipped], over := true },
              { engine := 1, list := 2, parent := .action 1 1 0, acts := [.skipped], over := true }],
            calls := [
              { rpc := 0, target := 1, job := 0, action := 0, iter := 4, stage := .completed },
              { rpc := 0, target := 1, job := 1, action := 0, iter := 0, stage := .completed },
              { rpc := 0, target := 1, job := 2, action := 0, iter := 0, stage := .completed },
              { rpc := 0, target := 1, job := 0, action := 0, iter := 3, stage := .completed }] } := by
        decide +kernel
      rw [he]
      cases op with
      | start j a => rcases j with _ | _ | _ | _ | j <;> rcases a with _ | _ | a <;> rfl
      | skip j a => rcases j with _ | _ | _ | _ | j <;> rcases a with _ | _ | a <;> rfl
      | iterate j a t => rcases j with _ | _ | _ | _ | j <;> rcases a with _ | _ | a <;> rfl
      | finish j a => rcases j with _ | _ | _ | _ | j <;> rcases a with _ | _ | a <;> rfl
      | deliver c => rcases c with _ | _ | _ | _ | c <;> rfl
      | dispatch c => rcases c with _ | _ | _ | _ | c <;> rfl
      | endJob j => rcases j with _ | _ | _ | _ | j <;> rfl
      | complete c => rcases c with _ | _ | _ | _ | c <;> rfl
    rw [cstep]
    split
    · rw [h]; rfl
    · rfl
  | stop j a => rcases j with _ | _ | _ | _ | j <;> rcases a with _ | _ | a <;> rfl
  | leave j => rcases j with _ | _ | _ | _ | j <;> rfl
  | refuse c => rcases c with _ | _ | _ | _ | c <;> rfl

/-- So it is with as many threads as needed. -/
theorem C234_elastic_partial {cfg : Config} {ops : List COp} {s : CState} (hs : Sensible cfg)
    (ht : ∀ e, cfg.threads e = none) (h : CancelRun cfg ops s) (hstuck : CancelStuck cfg s) :
    TrafficOver s.base :=
  cancel_over (layer := fun _ => 0) hs
    (fun e _ _ _ _ _ _ _ t _ => ⟨Nat.le_refl _, fun hn => absurd (ht t) hn⟩)
    (fun e => by rw [ht]; simp) (inv_cancel h) hstuck

example : TrafficOver ringEnd.base :=
  C234_elastic_partial ring_sensible (fun _ => rfl) ring_run ring_stuck

/-- Cancelled everywhere, such a test always comes to its end: from every state there are steps that lead
there, and all other steps lead closer to it (C233). -/
theorem C234_finish_partial {cfg : Config} {D layer : Nat → Nat} {ops : List COp} {s : CState}
    (hD : Drains cfg D) (hs : Sensible cfg) (hy : Layered cfg layer) (hz : ∀ e, cfg.threads e ≠ some 0)
    (h : CancelRun cfg ops s) (hall : AllRefuse cfg s) :
    ∃ ops' s', crun cfg s ops' = some s' ∧ TrafficOver s'.base := by
  have hkey : ∀ n (ops : List COp) (s : CState), CancelRun cfg ops s → AllRefuse cfg s →
      stateDrain cfg D s.base ≤ n → ∃ ops' s', crun cfg s ops' = some s' ∧ TrafficOver s'.base := by
    intro n
    induction n with
    | zero =>
      intro ops s h hall hn
      refine ⟨[], s, rfl, C234_stuck_partial hs hy hz h ?_⟩
      intro op hop
      cases hc : cstep cfg s op with
      | none => rfl
      | some s' =>
        have := drain_step hD (inv_cancel h) hall hc
        have : trafficSteps [op] = 1 := by
          cases op with
          | cancel e => exact absurd rfl (hop e).1
          | expire e => exact absurd rfl (hop e).2
          | base op => rfl
          | stop j a => rfl
          | leave j => rfl
          | refuse c => rfl
        omega
    | succ n ih =>
      intro ops s h hall hn
      by_cases hst : CancelStuck cfg s
      · exact ⟨[], s, rfl, C234_stuck_partial hs hy hz h hst⟩
      · unfold CancelStuck at hst
        have : ∃ op, (∀ e, op ≠ .cancel e ∧ op ≠ .expire e) ∧ cstep cfg s op ≠ none := by
          apply Classical.byContradiction
          intro hno
          exact hst fun op hop => Classical.byContradiction fun hne => hno ⟨op, hop, hne⟩
        obtain ⟨op, hop, hne⟩ := this
        cases hc : cstep cfg s op with
        | none => exact absurd hc hne
        | some s1 =>
          have h1 := drain_step hD (inv_cancel h) hall hc
          have h2 : trafficSteps [op] = 1 := by
            cases op with
            | cancel e => exact absurd rfl (hop e).1
            | expire e => exact absurd rfl (hop e).2
            | base op => rfl
            | stop j a => rfl
            | leave j => rfl
            | refuse c => rfl
          have h3 : CancelRun cfg (ops ++ [op]) s1 := csnoc.2 ⟨s, h, hc⟩
          have h4 : AllRefuse cfg s1 := fun e he =>
            ⟨(flags_step hc).1 e (hall e he).1, (flags_step hc).2 e (hall e he).2⟩
          obtain ⟨ops', s', h5, h6⟩ := ih _ s1 h3 h4 (by omega)
          exact ⟨op :: ops', s', by rw [crun, hc]; exact h5, h6⟩
  exact hkey _ ops s h hall (Nat.le_refl _)

example : ∃ ops' s', crun ringCfg ringMid ops' = some s' ∧ TrafficOver s'.base := by
  obtain ⟨D, hD⟩ := C233_exists_partial ring_nest
  exact C234_finish_partial (layer := fun _ => 0) hD ring_sensible
    (fun e _ _ _ _ _ _ _ t _ => ⟨Nat.le_refl _, fun hn => absurd rfl hn⟩) (fun e => by simp [ringCfg])
    ring_mid ring_refuse

/-- Two servers with one thread each, whose handlers call each other, stay stuck when they are cancelled. -/
def crossCancelled : CState :=
  { base := crossEnd
    cancelled := fun i => i == 2 || (i == 1 || (i == 0 || false))
    refusing := fun i => i == 2 || (i == 1 || (i == 0 || false)) }

def crossCancelOps : List COp :=
  crossOps.map .base ++ [.cancel 0, .cancel 1, .cancel 2, .expire 0, .expire 1, .expire 2]

theorem C234_negation : Sensible crossCfg ∧ Levels crossCfg (fun l => 2 - l) ∧
    (∀ e, crossCfg.threads e ≠ some 0) ∧ CancelRun crossCfg crossCancelOps crossCancelled ∧
    AllRefuse crossCfg crossCancelled ∧ CancelStuck crossCfg crossCancelled ∧
    ¬ TrafficOver crossCancelled.base := by
  obtain ⟨h1, h2, h3, h4, h5, h6⟩ := C228_negation
  refine ⟨h1, h2, h3, ?_, ?_, ?_, h6⟩
  · unfold CancelRun crossCancelOps
    rw [crun_append, lift_run h4]
    rfl
  · rintro e (⟨l, h⟩ | ⟨q, h⟩)
    · simp [crossCfg] at h
      rw [h.1]
      exact ⟨rfl, rfl⟩
    · simp [crossCfg] at h
      rcases h with h | h <;> rw [h] <;> exact ⟨rfl, rfl⟩
  · intro op hop
    unfold crossCancelled
    cases op with
    | base op =>
      rw [cstep]
      split
      · dsimp only
        rw [h5 op]
        rfl
      · rfl
    | cancel e => exact absurd rfl (hop e).1
    | expire e => exact absurd rfl (hop e).2
    | stop j a =>
      rw [cross_end]
      rcases j with _ | _ | _ | j <;> rcases a with _ | a <;> rfl
    | leave j =>
      rw [cross_end]
      rcases j with _ | _ | _ | j <;> rfl
    | refuse c =>
      rw [cross_end]
      rcases c with _ | _ | _ | _ | c <;> rfl

/-! ### RPCs that are refused (C235) -/

/-- An RPC that was refused is answered, never handled by a list, and was sent to an engine that is
cancelled. -/
theorem C235_refused {cfg : Config} {ops : List COp} {s : CState} {c : Nat} (h : CancelRun cfg ops s)
    (hc : .refuse c ∈ ops) : ∃ r, s.base.calls[c]? = some r ∧
      (r.stage = .answered ∨ r.stage = .completed) ∧ s.cancelled r.target = true ∧
      ∀ k ∈ s.base.jobs, k.parent ≠ .call c := by
  obtain ⟨⟨⟨r, h1, h2⟩, h3⟩, r', h4, h5⟩ := refused_run h hc
  rw [h1] at h4
  cases h4
  exact ⟨r, h1, h2, h5, h3⟩

example : ∃ r, ringEnd.base.calls[2]? = some r ∧ (r.stage = .answered ∨ r.stage = .completed) ∧
    ringEnd.cancelled r.target = true ∧ ∀ k ∈ ringEnd.base.jobs, k.parent ≠ .call 2 :=
  C235_refused ring_run (by decide +kernel)

/-- Cancelled or not, no RPC is handled twice, and only by the list that the test names for it, at the
engine it was sent to. -/
theorem C235_once {cfg : Config} {ops : List COp} {s : CState} {c : Nat} (h : CancelRun cfg ops s) :
    (s.base.jobs.countP fun k => k.parent = .call c) ≤ 1 ∧
      ∀ k ∈ s.base.jobs, k.parent = .call c →
        ∃ r, s.base.calls[c]? = some r ∧ cfg.handler r.rpc = some k.list ∧ k.engine = r.target := by
  have hI := inv_cancel h
  constructor
  · apply countP_le_one
    intro i j x y h1 h2 h3 h4
    exact hI.unique i j x y c h1 h2 (by simpa using h3) (by simpa using h4)
  · intro k hk hp
    obtain ⟨j, hj⟩ := List.getElem?_of_mem hk
    obtain ⟨r, h1, h2, h3, _⟩ := hI.parent j k c hj hp
    exact ⟨r, h1, h2, h3⟩

example : (ringEnd.base.jobs.countP fun k => k.parent = .call 1) ≤ 1 := (C235_once ring_run).1

end Distbench.Traffic
