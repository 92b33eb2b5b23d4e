import Verif.Lemmas.TrafficTime
import Verif.Props.Traffic
import Verif.Props.Report

/-! The traffic of a whole test whose actions may have time limits. -/

namespace Distbench.Traffic
open Spec

/-! ### Examples -/

/-- Engine 0 makes RPCs to engine 1 for some time, two at a time; there each one is handled by a list that
runs an open loop with a time limit. -/
def clockCfg : Config :=
  { actions := fun
      | 0 => [{ work := .rpc 0 1, iters := 100, parallel := 2, timed := some 2 }, { work := .other, deps := [0] }]
      | 1 => [{ work := .rpc 1 1, iters := 50, parallel := 50, timed := some 1 }]
      | _ => []
    handler := fun q => if q = 0 then some 1 else none
    servers := fun q t => if q = 0 then t == 1 else t == 2
    threads := fun _ => some 2
    roots := [(0, 0)] }

/-- Three iterations of the first action begin; its time limit passes while the third runs. -/
def clockStart : List TOp :=
  [.base (.start 0 0), .base (.iterate 0 0 [1]), .base (.iterate 0 0 [1]), .base (.deliver 0),
   .base (.deliver 1), .base (.dispatch 0), .base (.dispatch 1), .base (.start 1 0), .base (.iterate 1 0 [2]),
   .base (.iterate 1 0 [2]), .late 1 0, .base (.deliver 2), .base (.complete 2), .base (.deliver 3),
   .base (.complete 3), .stop 1 0, .base (.endJob 1), .base (.complete 0), .base (.iterate 0 0 [1]), .late 0 0]

def clockOps : List TOp := clockStart ++
  [.base (.start 2 0), .late 2 0, .base (.iterate 2 0 [2]), .base (.deliver 5), .base (.complete 5), .stop 2 0,
   .base (.endJob 2), .base (.complete 1), .base (.deliver 4), .base (.dispatch 4), .base (.start 3 0),
   .base (.iterate 3 0 [2]), .base (.deliver 6), .late 3 0, .base (.complete 6), .stop 3 0, .base (.endJob 3),
   .base (.complete 4), .stop 0 0, .base (.start 0 1), .base (.iterate 0 1 []), .base (.finish 0 1), .base (.endJob 0)]

def clockMid : TState := (trun clockCfg { base := initial clockCfg } clockStart).getD { base := { jobs := [] } }
def clockEnd : TState := (trun clockCfg { base := initial clockCfg } clockOps).getD { base := { jobs := [] } }

theorem trun_getD {cfg : Config} {ops : List TOp} (h : (trun cfg { base := initial cfg } ops).isSome = true) :
    TimedRun cfg ops ((trun cfg { base := initial cfg } ops).getD { base := { jobs := [] } }) := by
  unfold TimedRun
  cases hr : trun cfg { base := initial cfg } ops with
  | none => rw [hr] at h; cases h
  | some s => rfl

theorem clock_mid : TimedRun clockCfg clockStart clockMid := trun_getD (by decide +kernel)

theorem clock_run : TimedRun clockCfg clockOps clockEnd := trun_getD (by decide +kernel)

theorem clock_over : TrafficOver clockEnd.base := by
  refine ⟨?_, ?_⟩ <;> decide +kernel

theorem clock_actions {l : Nat} {x : Action} (hx : x ∈ clockCfg.actions l) :
    l = 0 ∧ (x = { work := .rpc 0 1, iters := 100, parallel := 2, timed := some 2 } ∨
      x = { work := .other, deps := [0] }) ∨
    l = 1 ∧ x = { work := .rpc 1 1, iters := 50, parallel := 50, timed := some 1 } := by
  match l with
  | 0 => simp [clockCfg] at hx; exact .inl ⟨rfl, hx⟩
  | 1 => simp [clockCfg] at hx; exact .inr ⟨rfl, hx⟩
  | n + 2 => cases hx

theorem clock_unconditional : Unconditional clockCfg := by
  intro l x hx
  rcases clock_actions hx with ⟨_, rfl | rfl⟩ | ⟨_, rfl⟩ <;> rfl

theorem clock_levels : Levels clockCfg (fun l => 1 - l) := by
  rintro l l' ⟨x, hx, hl⟩
  rcases clock_actions hx with ⟨rfl, rfl | rfl⟩ | ⟨rfl, rfl⟩
  · rcases hl with hl | ⟨q, f, h1, h2⟩
    · cases hl
    · cases h1; cases h2; decide
  · rcases hl with hl | ⟨q, f, h1, h2⟩ <;> contradiction
  · rcases hl with hl | ⟨q, f, h1, h2⟩
    · cases hl
    · cases h1; cases h2

theorem clock_sensible : Sensible clockCfg := by
  intro l a x hx
  match l, a with
  | 0, 0 => cases hx; exact ⟨by simp, by simp, fun q f h => by cases h; exact ⟨1, rfl⟩⟩
  | 0, 1 => cases hx; exact ⟨by simp, by simp, fun q f h => by cases h⟩
  | 1, 0 => cases hx; exact ⟨by simp, by simp, fun q f h => by cases h; exact ⟨2, rfl⟩⟩
  | 0, _ + 2 => cases hx
  | 1, _ + 1 => cases hx
  | _ + 2, _ => cases hx

theorem clock_layered : Layered clockCfg (fun e => 2 - e) := by
  have hmay : ∀ {e l : Nat}, MayRun clockCfg e l → e = 0 ∧ l = 0 ∨ e = 1 ∧ l = 1 := by
    intro e l h
    induction h with
    | root hr => simp [clockCfg] at hr; omega
    | handler hs hh =>
      simp only [clockCfg] at hs hh
      split at hh
      · next hq => cases hh; rw [if_pos hq] at hs; simp at hs; omega
      · cases hh
    | nested _ hx hw ih =>
      rcases clock_actions hx with ⟨_, rfl | rfl⟩ | ⟨_, rfl⟩ <;> cases hw
  intro e l hm x hx q fan hw t ht
  rcases clock_actions hx with ⟨rfl, rfl | rfl⟩ | ⟨rfl, rfl⟩
  · cases hw
    rcases hmay hm with ⟨rfl, _⟩ | ⟨_, h⟩
    · simp [clockCfg] at ht
      subst ht
      decide
    · cases h
  · cases hw
  · cases hw
    rcases hmay hm with ⟨_, h⟩ | ⟨rfl, _⟩
    · cases h
    · simp [clockCfg] at ht
      subst ht
      decide

/-! ### How many RPCs a test with time limits makes (C248) -/

/-- When a test without predicates is over, it has made at least the RPCs of each kind that its lists add up
to if every action with a time limit makes only the iterations that begin in any case. -/
theorem C248_at_least {cfg : Config} {r : Nat} {predicted : Nat → Nat} {ops : List TOp} {s : TState}
    (hp : Predicts (fewest cfg) r predicted) (hu : Unconditional cfg) (h : TimedRun cfg ops s)
    (ho : TrafficOver s.base) : (cfg.roots.map fun x => predicted x.2).sum ≤ rpcsMade s.base r := by
  have h1 := rpcs_atLeast hp hu h
  rw [over_leftN (inv_timed h) ho] at h1
  exact h1

/-- At no time has it made more than they add up to if every action with a time limit makes as many
iterations as any of them has begun. -/
theorem C248_at_most {cfg : Config} {r n : Nat} {predicted : Nat → Nat} {ops : List TOp} {s : TState}
    (hp : Predicts (atMost n cfg) r predicted) (h : TimedRun cfg ops s) (hl : LimitedTo cfg n ops s) :
    rpcsMade s.base r ≤ (cfg.roots.map fun x => predicted x.2).sum := by
  have := rpcs_leftN hp h (begins_limited h hl)
  omega

/-- And never more than without the time limits. -/
theorem C248_never_more {cfg : Config} {r : Nat} {predicted : Nat → Nat} {ops : List TOp} {s : TState}
    (hp : Predicts cfg r predicted) (h : TimedRun cfg ops s) :
    rpcsMade s.base r ≤ (cfg.roots.map fun x => predicted x.2).sum := by
  have := rpcs_leftN (N := (·.iters)) (by rw [with_iters]; exact hp) h (begins_iters h)
  omega

/-- If no action has a time limit, the number is that of Props/Traffic.lean. -/
theorem C248_exact {cfg : Config} {r : Nat} {predicted : Nat → Nat} {ops : List TOp} {s : TState}
    (hp : Predicts cfg r predicted) (hu : Unconditional cfg) (ht : ∀ l, ∀ x ∈ cfg.actions l, x.timed = none)
    (h : TimedRun cfg ops s) (ho : TrafficOver s.base) :
    rpcsMade s.base r = (cfg.roots.map fun x => predicted x.2).sum := by
  refine Nat.le_antisymm (C248_never_more hp h) (C248_at_least ?_ hu h ho)
  have : fewest cfg = cfg := by
    unfold fewest withIterations
    congr 1
    funext l
    rw [List.map_congr_left (g := id), List.map_id]
    intro x hx
    have ht := ht l x hx
    cases x
    cases ht
    rfl
  rw [this]
  exact hp

/-- There are such predictions whenever no list leads to itself. -/
theorem C248_predicted {cfg : Config} {level : Nat → Nat} (h : Levels cfg level) (r n : Nat) :
    (∃ predicted, Predicts (fewest cfg) r predicted) ∧ ∃ predicted, Predicts (atMost n cfg) r predicted :=
  ⟨⟨_, predicts_iff.2 (solves_levels (countRpc r) (levels_with _ h))⟩,
    ⟨_, predicts_iff.2 (solves_levels (countRpc r) (levels_with _ h))⟩⟩

/-- Two RPCs of the client at least, and one RPC for each of them. -/
theorem clock_fewest : Predicts (fewest clockCfg) 1 (fun l => if l = 0 then 2 else if l = 1 then 1 else 0) := by
  intro l
  match l with
  | 0 => decide +kernel
  | 1 => decide +kernel
  | n + 2 => simp [fewest, withIterations, clockCfg]

theorem clock_three : Predicts (atMost 3 clockCfg) 1 (fun l => if l = 0 then 9 else if l = 1 then 3 else 0) := by
  intro l
  match l with
  | 0 => decide +kernel
  | 1 => decide +kernel
  | n + 2 => simp [atMost, withIterations, clockCfg]

theorem clock_all : Predicts clockCfg 1 (fun l => if l = 0 then 5000 else if l = 1 then 50 else 0) := by
  intro l
  match l with
  | 0 => decide +kernel
  | 1 => decide +kernel
  | n + 2 => simp [clockCfg]

theorem clock_limited : LimitedTo clockCfg 3 clockOps clockEnd := by
  have hj : ∀ j, j < clockEnd.base.jobs.length → ∀ a, a < 2 → timedIterations clockOps j a ≤ 3 := by decide +kernel
  intro j job a x hj' hx _
  refine hj j (List.getElem?_eq_some_iff.1 hj').1 a ?_
  have hlt := (List.getElem?_eq_some_iff.1 hx).1
  have : (clockCfg.actions job.list).length ≤ 2 := by
    match job.list with
    | 0 => decide
    | 1 => decide
    | n + 2 => exact Nat.zero_le 2
  omega

example : 2 ≤ rpcsMade clockEnd.base 1 := C248_at_least clock_fewest clock_unconditional clock_run clock_over

example : rpcsMade clockEnd.base 1 ≤ 9 := C248_at_most clock_three clock_run clock_limited

example : rpcsMade clockMid.base 1 ≤ 5000 := C248_never_more clock_all clock_mid

example : rpcsMade clockEnd.base 1 = 4 := by decide +kernel

example : rpcsMade exEnd 1 = 6 :=
  C248_exact (s := { base := exEnd }) ex_predicts ex_unconditional (by
    intro l
    match l with
    | 0 => decide +kernel
    | 1 => decide +kernel
    | 2 => decide +kernel
    | n + 3 => intro x hx; cases hx) (time_run ex_run) ex_over

example : ∃ predicted, Predicts (atMost 7 clockCfg) 1 predicted := (C248_predicted clock_levels 1 7).2

/-! ### A test with time limits ends (C249) -/

/-- The steps of the test are at most those that its lists add up to if every action with a time limit makes
as many iterations as any of them has begun: the bound depends on how far the actions get in their time, not
on their maximal numbers of iterations. -/
theorem C249_steps {cfg : Config} {n : Nat} {D : Nat → Nat} {ops : List TOp} {s : TState}
    (hD : CountsSteps (atMost n cfg) D) (h : TimedRun cfg ops s) (hl : LimitedTo cfg n ops s) :
    timedSteps ops ≤ (cfg.roots.map fun x => D x.2).sum := by
  have := steps_leftN (counts_iff.1 hD) h (begins_limited h hl)
  omega

/-- There is such a bound whenever no list leads to itself. -/
theorem C249_bound {cfg : Config} {level : Nat → Nat} (h : Levels cfg level) (n : Nat) :
    ∃ D, CountsSteps (atMost n cfg) D :=
  ⟨_, counts_iff.2 (solves_levels countSteps (levels_with _ h))⟩

/-- Then there is also one for all runs. -/
theorem C249_ends {cfg : Config} {level : Nat → Nat} (h : Levels cfg level) :
    ∃ bound, ∀ ops s, TimedRun cfg ops s → timedSteps ops ≤ bound := by
  refine ⟨(cfg.roots.map fun x => approx cfg countSteps (level x.2 + 1) x.2).sum, fun ops s hr => ?_⟩
  have := steps_leftN (N := (·.iters)) (G := fun l => approx cfg countSteps (level l + 1) l)
    (by rw [with_iters]; exact solves_levels countSteps h) hr (begins_iters hr)
  exact Nat.le_trans (Nat.le_add_right _ _) this

theorem clock_counts : CountsSteps (atMost 3 clockCfg)
    (fun l => if l = 0 then 1 + (2 + 3 * (1 + (3 + 12))) + 3 else if l = 1 then 12 else 1) := by
  intro l
  match l with
  | 0 => decide +kernel
  | 1 => decide +kernel
  | n + 2 => simp [atMost, withIterations, clockCfg]

example : timedSteps clockOps ≤ 54 := C249_steps clock_counts clock_run clock_limited

example : timedSteps clockOps = 39 := by decide +kernel

example : ∃ bound, ∀ ops s, TimedRun clockCfg ops s → timedSteps ops ≤ bound := C249_ends clock_levels

example : ∃ D, CountsSteps (atMost 3 clockCfg) D := C249_bound clock_levels 3

/-! ### After its time limit an action begins no more iterations (C250) -/

/-- Once the time limit of an action has passed, it begins no more iterations, except those that begin in any
case. -/
theorem C250_late {cfg : Config} {ops ops' : List TOp} {s1 s : TState} {j a : Nat} {job : Job} {x : Action}
    (h1 : TimedRun cfg ops s1) (h : TimedRun cfg (ops ++ ops') s) (hl : .late j a ∈ ops)
    (hj : s1.base.jobs[j]? = some job) (hx : (cfg.actions job.list)[a]? = some x) :
    timedIterations (ops ++ ops') j a ≤ max (timedIterations ops j a) (x.timed.getD 0) := by
  have h2 : trun cfg s1 ops' = some s := by
    unfold TimedRun at h1 h
    rw [trun_append, h1] at h
    exact h
  exact late_iterations h1 (late_of_mem h1 hl) h2 hj hx

/-- So none at all if these have begun before. -/
theorem C250_none {cfg : Config} {ops ops' : List TOp} {s1 s : TState} {j a : Nat} {job : Job} {x : Action}
    (h1 : TimedRun cfg ops s1) (h : TimedRun cfg (ops ++ ops') s) (hl : .late j a ∈ ops)
    (hj : s1.base.jobs[j]? = some job) (hx : (cfg.actions job.list)[a]? = some x)
    (hb : x.timed.getD 0 ≤ timedIterations ops j a) : timedIterations ops' j a = 0 := by
  have := C250_late h1 h hl hj hx
  unfold timedIterations at this hb ⊢
  rw [List.countP_append] at this
  omega

/-- An action whose time limit has passed has begun the iterations that begin in any case when it ends. -/
theorem C250_first {cfg : Config} {ops : List TOp} {s s' : TState} {j a : Nat} (h : TimedRun cfg ops s)
    (hs : tstep cfg s (.stop j a) = some s') :
    ∃ job x, s.base.jobs[j]? = some job ∧ (cfg.actions job.list)[a]? = some x ∧
      x.timed.getD 0 ≤ timedIterations ops j a := by
  obtain ⟨job, x, left, hj, hx, hw, hl, hopen, hf, _⟩ := tstep_stop hs
  have := ((begun_timed h j).2 job hj a x _ hx hw).2.2 _ rfl
  exact ⟨job, x, hj, hx, by omega⟩

example : timedIterations (clockOps.drop 20) 0 0 = 0 :=
  C250_none (ops := clockStart) (s1 := clockMid) clock_mid clock_run (by decide +kernel)
    (job := (clockMid.base.jobs[0]?).getD (newJob clockCfg 0 0 .root)) (by decide +kernel)
    (x := { work := .rpc 0 1, iters := 100, parallel := 2, timed := some 2 }) (by decide +kernel) (by decide +kernel)

example : timedIterations clockStart 0 0 = 3 := by decide +kernel

example : timedIterations clockOps 2 0 = 1 := by decide +kernel

example : (tstep clockCfg ((trun clockCfg { base := initial clockCfg } (clockOps.take 25)).getD clockMid)
    (.stop 2 0)).isSome = true := by decide +kernel

/-! ### A test with time limits does not get stuck (C251) -/

/-- If nothing more can happen, all lists are over and all RPCs are back: a time limit that has not passed yet
holds nothing up. -/
theorem C251_stuck_partial {cfg : Config} {layer : Nat → Nat} {ops : List TOp} {s : TState}
    (hs : Sensible cfg) (hy : Layered cfg layer) (hz : ∀ e, cfg.threads e ≠ some 0)
    (h : TimedRun cfg ops s) (hstuck : TimedStuck cfg s) : TrafficOver s.base :=
  time_over hs hy hz (inv_timed h) hstuck

/-- If besides no list leads to itself, every run can be continued until all is over. -/
theorem C251_finish_partial {cfg : Config} {level layer : Nat → Nat} {ops : List TOp} {s : TState}
    (hs : Sensible cfg) (hl : Levels cfg level) (hy : Layered cfg layer)
    (hz : ∀ e, cfg.threads e ≠ some 0) (h : TimedRun cfg ops s) :
    ∃ ops' s', TimedRun cfg (ops ++ ops') s' ∧ TrafficOver s'.base := by
  obtain ⟨bound, hb⟩ := C249_ends hl
  have : ∀ n ops s, TimedRun cfg ops s → bound - timedSteps ops = n →
      ∃ ops' s', TimedRun cfg (ops ++ ops') s' ∧ TrafficOver s'.base := by
    intro n
    induction n using Nat.strongRecOn with
    | ind n ih =>
      intro ops s h hn
      by_cases hst : TimedStuck cfg s
      · exact ⟨[], s, by rw [List.append_nil]; exact h, C251_stuck_partial hs hy hz h hst⟩
      · have : ∃ op s', (∀ j a, op ≠ .late j a) ∧ tstep cfg s op = some s' := by
          apply Classical.byContradiction
          intro hne
          apply hst
          intro op hop
          cases ho : tstep cfg s op with
          | none => rfl
          | some s' => exact absurd ⟨op, s', hop, ho⟩ hne
        obtain ⟨op, s', hnl, hop⟩ := this
        have hr : TimedRun cfg (ops ++ [op]) s' := tsnoc.2 ⟨s, h, hop⟩
        have hlen := hb _ _ hr
        have hone : timedSteps [op] = 1 := by
          cases op with
          | base op => rfl
          | late j a => exact absurd rfl (hnl j a)
          | stop j a => rfl
        rw [tsteps_snoc, hone] at hlen
        obtain ⟨ops', s'', g1, g2⟩ := ih (bound - timedSteps (ops ++ [op]))
          (by rw [tsteps_snoc, hone]; omega) _ _ hr rfl
        exact ⟨op :: ops', s'', by rw [List.append_assoc] at g1; exact g1, g2⟩
  exact this _ ops s h rfl

example : ∃ ops' s', TimedRun clockCfg (clockStart ++ ops') s' ∧ TrafficOver s'.base :=
  C251_finish_partial clock_sensible clock_levels clock_layered (fun e => by simp [clockCfg]) clock_mid

/-- With limited threads it can get stuck: time limits do not help if the RPCs of an action never come
back. -/
theorem C251_negation : ∃ cfg level ops s, Sensible cfg ∧ Levels cfg level ∧ (∀ e, cfg.threads e ≠ some 0) ∧
    TimedRun cfg ops s ∧ TimedStuck cfg s ∧ ¬ TrafficOver s.base := by
  obtain ⟨h1, h2, h3, h4, h5, h6⟩ := C228_negation
  refine ⟨crossCfg, _, _, { base := crossEnd }, h1, h2, h3, time_run h4, ?_, h6⟩
  intro op hop
  cases op with
  | base op =>
    rw [tstep]
    split
    · rw [h5 op]; rfl
    · rfl
  | late j a => exact absurd rfl (hop j a)
  | stop j a =>
    cases hs : tstep crossCfg { base := crossEnd } (.stop j a) with
    | none => rfl
    | some s' =>
      obtain ⟨_, _, _, _, _, _, hl, _⟩ := tstep_stop hs
      cases hl

end Distbench.Traffic

namespace Distbench.Report
open Traffic Spec

/-! ### The results of a test with time limits (C252) -/

/-- When a test with time limits is over and no list limits the samples, its results have, for each client,
server and RPC, as many samples as this client made such RPCs to this server. -/
theorem C252_samples {cfg : Config} {ops : List TOp} {s : TState} {S : Setup} {rpcNames : List Str}
    {engines : List Nat} {r : Summary.Result} (hd : Deployed cfg S engines) (h : TimedRun cfg ops s)
    (ho : TrafficOver s.base) (hl : NoLimit S s.base) (hr : Collected S rpcNames engines s.base r) {e t : Nat}
    (he : e ∈ engines) (ht : t ∈ engines) (q : Nat) :
    samplesIn r (S.nameOf e) (S.nameOf t) q = madeBetween s.base e t q :=
  between (placed hd (inv_timed h)) ho (has_job (inv_timed h)) hl hr he ht q

/-- The number of samples that the summary gives is that of all runs of lists together: for each the number of
its RPCs, but not more than `max_rpc_samples` of its list. -/
theorem C252_total {cfg : Config} {ops : List TOp} {s : TState} {S : Setup} {rpcNames : List Str}
    {engines : List Nat} {r : Summary.Result} {lines : List Summary.Line} (hd : Deployed cfg S engines)
    (h : TimedRun cfg ops s) (ho : TrafficOver s.base) (hr : Collected S rpcNames engines s.base r)
    (hs : Summary.summarize r = .ok lines) {n : Int} (hn : .totalSamples n ∈ lines) :
    n = ((s.base.jobs.zipIdx.map fun x => keptOf (S.limit x.1.list) (madeBy s.base x.2)).sum : Nat) := by
  have hp := placed hd (inv_timed h)
  rw [(Summary.C129_counts (keyed_collected hp hr) hs n).1 hn, ← kept_collected hp ho hr]
  omega

/-- The number in the latency line of an RPC is the number of its RPCs that succeeded and were not for
warmup. -/
theorem C252_measured {cfg : Config} {ops : List TOp} {s : TState} {S : Setup} {rpcNames : List Str}
    {engines : List Nat} {r : Summary.Result} {lines : List Summary.Line} (hd : Deployed cfg S engines)
    (h : TimedRun cfg ops s) (ho : TrafficOver s.base) (hl : NoLimit S s.base)
    (hr : Collected S rpcNames engines s.base r) (hs : Summary.summarize r = .ok lines) {name : Str} {n : Nat}
    {stats : Option Summary.Stats} (hn : .latency name n stats ∈ lines) :
    n = measuredRpcs S rpcNames s.base name := by
  have hpl := placed hd (inv_timed h)
  have hrn : r.rpcNames = rpcNames := by obtain ⟨_, _, _, _, rfl⟩ := hr; rfl
  rw [(Summary.latency_mem hs hn).1, ← total_latencies, total_collected hpl ho (has_job (inv_timed h)) hl hr,
    measuredRpcs, ← sum_countP, hrn]

/-- Where the engines of the example are. -/
def clockSetup : Setup :=
  { place := fun e => (e, 0)
    names := [["client/0".toList], ["server/0".toList], ["leaf/0".toList]]
    limit := fun _ => 0
    failed := fun _ => false
    warmup := fun _ => false }

theorem clock_deployed : Deployed clockCfg clockSetup [0, 1, 2] := by
  refine ⟨uniqueNames_small (n := 3) (m := 2) (by decide) (by decide) (by decide +kernel), by decide, ?_, by decide, ?_⟩
  · intro e he
    simp only [List.mem_cons, List.not_mem_nil, or_false] at he
    rcases he with rfl | rfl | rfl <;> exact ⟨_, rfl⟩
  · rintro e (⟨l, h⟩ | ⟨q, h⟩)
    · simp [clockCfg] at h
      simp [h.1]
    · simp only [clockCfg] at h
      split at h <;> simp at h <;> subst h <;> decide

def clockResult : Summary.Result := resultOf clockSetup ["get".toList, "put".toList] [0, 1, 2] clockEnd.base

def clockLines : List Summary.Line :=
  match Summary.summarize clockResult with
  | .ok lines => lines
  | _ => []

theorem clock_lines : Summary.summarize clockResult = .ok clockLines ∧ .totalSamples 7 ∈ clockLines ∧
    .latency "put".toList 4 (some ⟨1, 1, 1, 1, 1, 1⟩) ∈ clockLines := by
  decide +kernel

example {r : Summary.Result} (h : Collected clockSetup ["get".toList, "put".toList] [0, 1, 2] clockEnd.base r) :
    samplesIn r "server/0".toList "leaf/0".toList 1 = 4 ∧ samplesIn r "client/0".toList "server/0".toList 0 = 3 := by
  have hl : NoLimit clockSetup clockEnd.base := fun k _ => Int.le_refl 0
  exact ⟨(C252_samples clock_deployed clock_run clock_over hl h (e := 1) (t := 2) (by decide) (by decide) 1).trans
      (by decide +kernel),
    (C252_samples clock_deployed clock_run clock_over hl h (e := 0) (t := 1) (by decide) (by decide) 0).trans
      (by decide +kernel)⟩

example : (7 : Int) = ((clockEnd.base.jobs.zipIdx.map fun x => keptOf 0 (madeBy clockEnd.base x.2)).sum : Nat) :=
  C252_total clock_deployed clock_run clock_over (collected_of _ _ _ fun _ => rfl) clock_lines.1 clock_lines.2.1

example : 4 = measuredRpcs clockSetup ["get".toList, "put".toList] clockEnd.base "put".toList :=
  C252_measured clock_deployed clock_run clock_over (fun k _ => Int.le_refl 0) (collected_of _ _ _ fun _ => rfl)
    clock_lines.1 clock_lines.2.2

end Distbench.Report
