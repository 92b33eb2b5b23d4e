import Verif.Lemmas.TrafficLive

/-! The traffic of a whole test: how many RPCs it makes, that it ends, and what is done when it has. -/

namespace Distbench.Traffic
open Spec

/-! ### Examples -/

/-- A test: list 0 calls two servers at once and then does something else; each server handles the RPC
with list 1, which makes an RPC and runs list 2, which makes two more at once. -/
def exCfg : Config :=
  { actions := fun
      | 0 => [{ work := .rpc 0 2 }, { work := .other, deps := [0] }]
      | 1 => [{ work := .rpc 1 1 }, { work := .list 2 }]
      | 2 => [{ work := .rpc 1 1, iters := 2, parallel := 2 }]
      | _ => []
    handler := fun q => if q = 0 then some 1 else none
    servers := fun q t => if q = 0 then t == 1 || t == 2 else t == 3
    threads := fun _ => some 1
    roots := [(0, 0)] }

def exStart : List Op :=
  [.start 0 0, .iterate 0 0 [1, 2], .deliver 0, .dispatch 0, .deliver 1, .dispatch 1, .start 1 0,
   .iterate 1 0 [3], .deliver 2, .complete 2, .finish 1 0, .start 1 1, .iterate 1 1 [], .start 2 0,
   .iterate 2 0 [3], .deliver 3, .complete 3, .finish 2 0, .start 2 1, .iterate 2 1 [], .start 3 0,
   .iterate 3 0 [3], .iterate 3 0 [3], .deliver 4, .complete 4, .deliver 5, .complete 5, .finish 3 0,
   .endJob 3, .finish 1 1, .endJob 1, .complete 0]

def exOps : List Op := exStart ++
  [.start 4 0, .iterate 4 0 [3], .deliver 6, .complete 6, .iterate 4 0 [3], .deliver 7, .complete 7,
   .finish 4 0, .endJob 4, .finish 2 1, .endJob 2, .complete 1, .finish 0 0, .start 0 1, .iterate 0 1 [],
   .finish 0 1, .endJob 0]

def exMid : State := (run exCfg (initial exCfg) exStart).getD { jobs := [] }
def exEnd : State := (run exCfg (initial exCfg) exOps).getD { jobs := [] }

theorem ex_mid : TrafficRun exCfg exStart exMid := by
  unfold TrafficRun
  decide +kernel

theorem ex_run : TrafficRun exCfg exOps exEnd := by
  unfold TrafficRun
  decide +kernel

theorem ex_over : TrafficOver exEnd := by
  refine ⟨?_, ?_⟩ <;> decide +kernel

def exPredicted : Nat → Nat
  | 0 => 6
  | 1 => 3
  | 2 => 2
  | _ => 0

theorem ex_predicts : Predicts exCfg 1 exPredicted := by
  intro l
  match l with
  | 0 => decide +kernel
  | 1 => decide +kernel
  | 2 => decide +kernel
  | n + 3 => rfl

theorem ex_unconditional : Unconditional exCfg := by
  intro l
  match l with
  | 0 => decide +kernel
  | 1 => decide +kernel
  | 2 => decide +kernel
  | n + 3 => intro x hx; cases hx

theorem ex_late : NoEarlyResponse exCfg := by
  intro l
  match l with
  | 0 => decide +kernel
  | 1 => decide +kernel
  | 2 => decide +kernel
  | n + 3 => intro x hx; cases hx

theorem ex_sensible : Sensible exCfg := by
  intro l a x hx
  match l, a with
  | 0, 0 => cases hx; exact ⟨by simp, by simp, fun q f h => by cases h; exact ⟨1, rfl⟩⟩
  | 0, 1 => cases hx; exact ⟨by simp, by simp, fun q f h => by cases h⟩
  | 1, 0 => cases hx; exact ⟨by simp, by simp, fun q f h => by cases h; exact ⟨3, rfl⟩⟩
  | 1, 1 => cases hx; exact ⟨by simp, by simp, fun q f h => by cases h⟩
  | 2, 0 => cases hx; exact ⟨by simp, by simp, fun q f h => by cases h; exact ⟨3, rfl⟩⟩
  | 0, _ + 2 => cases hx
  | 1, _ + 2 => cases hx
  | 2, _ + 1 => cases hx
  | _ + 3, _ => cases hx

theorem ex_levels : Levels exCfg (fun l => 3 - l) := by
  rintro l l' ⟨x, hx, hl⟩
  match l with
  | 0 =>
    simp [exCfg] at hx
    rcases hx with rfl | rfl
    · rcases hl with hl | ⟨q, f, h1, h2⟩
      · cases hl
      · cases h1; cases h2; decide
    · rcases hl with hl | ⟨q, f, h1, h2⟩ <;> contradiction
  | 1 =>
    simp [exCfg] at hx
    rcases hx with rfl | rfl
    · rcases hl with hl | ⟨q, f, h1, h2⟩
      · cases hl
      · cases h1; cases h2
    · rcases hl with hl | ⟨q, f, h1, h2⟩
      · cases hl; decide
      · cases h1
  | 2 =>
    simp [exCfg] at hx
    subst hx
    rcases hl with hl | ⟨q, f, h1, h2⟩
    · cases hl
    · cases h1; cases h2
  | n + 3 => cases hx

theorem ex_may {e l : Nat} (h : MayRun exCfg e l) : e = 0 ∧ l = 0 ∨ (e = 1 ∨ e = 2) ∧ (l = 1 ∨ l = 2) := by
  induction h with
  | root hr => simp [exCfg] at hr; omega
  | handler hs hh =>
    rename_i q
    simp only [exCfg] at hs hh
    split at hh
    · next hq => cases hh; rw [if_pos hq] at hs; simp at hs; omega
    · cases hh
  | nested _ hx hw ih =>
    rename_i e l l' x
    rcases ih with ⟨rfl, rfl⟩ | ⟨he, rfl | rfl⟩
    · simp [exCfg] at hx
      rcases hx with rfl | rfl <;> cases hw
    · simp [exCfg] at hx
      rcases hx with rfl | rfl <;> cases hw
      omega
    · simp [exCfg] at hx
      subst hx
      cases hw

theorem ex_layered : Layered exCfg (fun e => if e = 0 then 2 else if e = 3 then 0 else 1) := by
  intro e l hm x hx q fan hw t ht
  rcases ex_may hm with ⟨rfl, rfl⟩ | ⟨he, rfl | rfl⟩
  · simp [exCfg] at hx
    rcases hx with rfl | rfl <;> cases hw
    simp [exCfg] at ht
    rcases ht with rfl | rfl <;> decide
  · simp [exCfg] at hx
    rcases hx with rfl | rfl <;> cases hw
    simp [exCfg] at ht
    subst ht
    rcases he with rfl | rfl <;> decide
  · simp [exCfg] at hx
    subst hx
    cases hw
    simp [exCfg] at ht
    subst ht
    rcases he with rfl | rfl <;> decide

/-! ### How many RPCs a test makes (C226) -/

/-- When a test without predicates is over, it has made exactly the number of RPCs of each kind that its
lists, iterations and fanouts add up to. -/
theorem C226_rpcs {cfg : Config} {r : Nat} {predicted : Nat → Nat} {ops : List Op} {s : State}
    (hp : Predicts cfg r predicted) (hu : Unconditional cfg) (h : TrafficRun cfg ops s)
    (ho : TrafficOver s) : rpcsMade s r = (cfg.roots.map fun x => predicted x.2).sum := by
  have h1 := (rpcs_left hp h).2 (no_skip hu h).1
  rw [over_left (inv_run h) ho] at h1
  exact h1

example : rpcsMade exEnd 1 = 6 := C226_rpcs ex_predicts ex_unconditional ex_run ex_over

/-- At no time, and with predicates too, has it made more. -/
theorem C226_never_more {cfg : Config} {r : Nat} {predicted : Nat → Nat} {ops : List Op} {s : State}
    (hp : Predicts cfg r predicted) (h : TrafficRun cfg ops s) :
    rpcsMade s r ≤ (cfg.roots.map fun x => predicted x.2).sum := by
  have := (rpcs_left hp h).1
  omega

example : rpcsMade exMid 1 ≤ 6 := C226_never_more ex_predicts ex_mid

example : rpcsMade exMid 1 = 4 := by decide +kernel

/-- There is such a prediction whenever no list leads to itself. -/
theorem C226_predicted {cfg : Config} {level : Nat → Nat} (h : Levels cfg level) (r : Nat) :
    ∃ predicted, Predicts cfg r predicted :=
  ⟨_, predicts_iff.2 (solves_levels (countRpc r) h)⟩

example : ∃ predicted, Predicts exCfg 0 predicted := C226_predicted ex_levels 0

/-! ### A test ends (C227) -/

/-- If no list leads to itself, there is a bound on the number of steps of the test, whatever the
schedule. -/
theorem C227_ends {cfg : Config} {level : Nat → Nat} (h : Levels cfg level) :
    ∃ bound, ∀ ops s, TrafficRun cfg ops s → ops.length ≤ bound := by
  refine ⟨(cfg.roots.map fun x => approx cfg countSteps (level x.2 + 1) x.2).sum, fun ops s hr => ?_⟩
  have := steps_left (solves_levels countSteps h) hr
  exact Nat.le_trans (Nat.le_add_right _ _) this

example : ∃ bound, ∀ ops s, TrafficRun exCfg ops s → ops.length ≤ bound := C227_ends ex_levels

/-- A list whose RPC is handled by the same list. -/
def loopCfg : Config :=
  { actions := fun _ => [{ work := .rpc 0 1, parallel := 2 }]
    handler := fun _ => some 0
    servers := fun _ _ => true
    threads := fun _ => none
    roots := [(0, 0)] }

theorem loop_more {s : State} {j : Nat} {k : Job} (hj : s.jobs[j]? = some k) (hf : k.acts = [.waiting])
    (ho : k.over = false) : ∃ ops s', ops.length = 4 ∧ run loopCfg s ops = some s' ∧
      ∃ (j' : Nat) (k' : Job), s'.jobs[j']? = some k' ∧ k'.acts = [.waiting] ∧ k'.over = false := by
  have hlt : j < s.jobs.length := (List.getElem?_eq_some_iff.1 hj).1
  obtain ⟨engine, list, parent, acts, early, over⟩ := k
  dsimp only at hf ho
  subst hf ho
  refine ⟨[.start j 0, .iterate j 0 [0], .deliver s.calls.length, .dispatch s.calls.length], ?_⟩
  have h1 : ∃ e, step loopCfg s (.start j 0) =
      some { s with jobs := s.jobs.set j ⟨engine, list, parent, [.running 1], e, false⟩ } := by
    refine ⟨designate loopCfg ⟨engine, list, parent, [.waiting], early, false⟩
      { work := .rpc 0 1, parallel := 2 } 0, ?_⟩
    rw [step]
    have : startable loopCfg s j 0 =
        some (⟨engine, list, parent, [.waiting], early, false⟩, { work := .rpc 0 1, parallel := 2 }) := by
      unfold startable
      rw [hj]
      rfl
    rw [this]
    rfl
  obtain ⟨e, h1⟩ := h1
  rw [run, h1]
  dsimp only
  rw [run]
  generalize hs1 : ({ s with jobs := s.jobs.set j ⟨engine, list, parent, [.running 1], e, false⟩ } : State) = s1
  have hj1 : s1.jobs[j]? = some ⟨engine, list, parent, [.running 1], e, false⟩ := by
    subst hs1
    simp [hlt]
  have hc1 : s1.calls = s.calls := by subst hs1; rfl
  have hopen : openIterations s1 j 0 1 < 2 := by
    unfold openIterations
    have := List.countP_le_length (p := fun i => busy s1 j 0 i) (l := List.range 1)
    simp only [List.length_range] at this
    omega
  have h2 : step loopCfg s1 (.iterate j 0 [0]) =
      some { jobs := s1.jobs.set j ⟨engine, list, parent, [.running 0], e, false⟩,
             calls := s1.calls ++ [{ rpc := 0, target := 0, job := j, action := 0, iter := 0 }] } := by
    rw [step, hj1]
    dsimp only
    have ha : (loopCfg.actions list)[0]? = some { work := .rpc 0 1, parallel := 2 } := rfl
    have hb : ([Act.running 1] : List Act)[0]? = some (.running 1) := rfl
    rw [ha, hb]
    dsimp only
    rw [if_pos hopen]
    rfl
  rw [h2, hc1]
  dsimp only
  generalize s1.jobs.set j ⟨engine, list, parent, [.running 0], e, false⟩ = jobs
  rw [run]
  have h3 : step loopCfg { jobs := jobs, calls := s.calls ++ [{ rpc := 0, target := 0, job := j, action := 0, iter := 0 }] }
      (.deliver s.calls.length) = some { jobs := jobs, calls := s.calls ++
        [{ rpc := 0, target := 0, job := j, action := 0, iter := 0, stage := .queued }] } := by
    rw [step]
    simp [loopCfg]
  rw [h3]
  dsimp only
  rw [run]
  have h4 : step loopCfg { jobs := jobs, calls := s.calls ++
        [{ rpc := 0, target := 0, job := j, action := 0, iter := 0, stage := .queued }] }
      (.dispatch s.calls.length) = some {
        jobs := jobs ++ [newJob loopCfg 0 0 (.call s.calls.length)]
        calls := s.calls ++
          [{ rpc := 0, target := 0, job := j, action := 0, iter := 0, stage := .running }] } := by
    rw [step]
    simp [loopCfg, freeThread]
  rw [h4]
  dsimp only
  rw [run]
  exact ⟨_, rfl, rfl, jobs.length, newJob loopCfg 0 0 (.call s.calls.length), by simp, rfl, rfl⟩

/-- A test with a list that leads to itself may go on for ever. -/
theorem C227_loop : ∀ bound, ∃ ops s, TrafficRun loopCfg ops s ∧ bound ≤ ops.length := by
  have : ∀ n, ∃ ops s, TrafficRun loopCfg ops s ∧ n ≤ ops.length ∧
      ∃ (j : Nat) (k : Job), s.jobs[j]? = some k ∧ k.acts = [.waiting] ∧ k.over = false := by
    intro n
    induction n with
    | zero => exact ⟨[], initial loopCfg, rfl, Nat.zero_le _, 0, newJob loopCfg 0 0 .root, rfl, rfl, rfl⟩
    | succ n ih =>
      obtain ⟨ops, s, h1, h2, j, k, h3, h4, h5⟩ := ih
      obtain ⟨ops', s', g1, g2, g3⟩ := loop_more h3 h4 h5
      refine ⟨ops ++ ops', s', ?_, by rw [List.length_append]; omega, g3⟩
      unfold TrafficRun at h1 ⊢
      rw [run_append, h1]
      exact g2
  intro n
  obtain ⟨ops, s, h1, h2, _⟩ := this n
  exact ⟨ops, s, h1, h2⟩

/-! ### A test does not get stuck (C228) -/

/-- When nothing more can happen, all lists are over and all RPCs are back, provided that engines whose
handlers share a limited number of threads are only called from higher layers. -/
theorem C228_stuck_partial {cfg : Config} {layer : Nat → Nat} {ops : List Op} {s : State}
    (hs : Sensible cfg) (hy : Layered cfg layer) (hz : ∀ e, cfg.threads e ≠ some 0)
    (h : TrafficRun cfg ops s) (hstuck : TrafficStuck cfg s) : TrafficOver s :=
  stuck_over hs hy hz (inv_run h) hstuck

/-- With pools that grow as needed there is no other condition. -/
theorem C228_elastic_partial {cfg : Config} {ops : List Op} {s : State} (hs : Sensible cfg)
    (ht : ∀ e, cfg.threads e = none) (h : TrafficRun cfg ops s) (hstuck : TrafficStuck cfg s) :
    TrafficOver s :=
  stuck_over (layer := fun _ => 0) hs
    (fun _ _ _ _ _ _ _ _ t _ => ⟨Nat.le_refl _, fun hn => absurd (ht t) hn⟩)
    (fun e => by rw [ht e]; simp) (inv_run h) hstuck

/-- If besides no list leads to itself, every run can be continued until all is over. -/
theorem C228_finish_partial {cfg : Config} {level layer : Nat → Nat} {ops : List Op} {s : State}
    (hs : Sensible cfg) (hl : Levels cfg level) (hy : Layered cfg layer)
    (hz : ∀ e, cfg.threads e ≠ some 0) (h : TrafficRun cfg ops s) :
    ∃ ops' s', TrafficRun cfg (ops ++ ops') s' ∧ TrafficOver s' := by
  obtain ⟨bound, hb⟩ := C227_ends hl
  have : ∀ n ops s, TrafficRun cfg ops s → bound - ops.length = n →
      ∃ ops' s', TrafficRun cfg (ops ++ ops') s' ∧ TrafficOver s' := by
    intro n
    induction n using Nat.strongRecOn with
    | ind n ih =>
      intro ops s h hn
      by_cases hst : TrafficStuck cfg s
      · exact ⟨[], s, by rw [List.append_nil]; exact h, C228_stuck_partial hs hy hz h hst⟩
      · have : ∃ op s', step cfg s op = some s' := by
          apply Classical.byContradiction
          intro hne
          apply hst
          intro op
          cases ho : step cfg s op with
          | none => rfl
          | some s' => exact absurd ⟨op, s', ho⟩ hne
        obtain ⟨op, s', hop⟩ := this
        have hr : TrafficRun cfg (ops ++ [op]) s' := snoc.2 ⟨s, h, hop⟩
        have hlen := hb _ _ hr
        rw [List.length_append, List.length_singleton] at hlen
        obtain ⟨ops', s'', g1, g2⟩ := ih (bound - (ops ++ [op]).length)
          (by rw [List.length_append, List.length_singleton]; omega) _ _ hr rfl
        exact ⟨op :: ops', s'', by rw [List.append_assoc] at g1; exact g1, g2⟩
  exact this _ ops s h rfl

example : ∃ ops' s', TrafficRun exCfg (exStart ++ ops') s' ∧ TrafficOver s' :=
  C228_finish_partial ex_sensible ex_levels ex_layered (fun e => by simp [exCfg]) ex_mid

/-- The same test with pools that grow. -/
def exElastic : Config := { exCfg with threads := fun _ => none }

example {ops : List Op} {s : State} (h : TrafficRun exElastic ops s) (hstuck : TrafficStuck exElastic s) :
    TrafficOver s :=
  C228_elastic_partial (cfg := exElastic) ex_sensible (fun _ => rfl) h hstuck

/-- Two servers with one thread each, whose handlers call the other server. -/
def crossCfg : Config :=
  { actions := fun
      | 0 => [{ work := .rpc 0 2 }]
      | 1 => [{ work := .rpc 1 1 }]
      | 2 => [{ work := .other }]
      | _ => []
    handler := fun q => if q = 0 then some 1 else some 2
    servers := fun _ t => t == 0 || t == 1
    threads := fun _ => some 1
    roots := [(2, 0)] }

def crossOps : List Op :=
  [.start 0 0, .iterate 0 0 [0, 1], .deliver 0, .deliver 1, .dispatch 0, .dispatch 1, .start 1 0,
   .start 2 0, .iterate 1 0 [1], .iterate 2 0 [0], .deliver 2, .deliver 3]

def crossEnd : State := (run crossCfg (initial crossCfg) crossOps).getD { jobs := [] }

theorem cross_levels : Levels crossCfg (fun l => 2 - l) := by
  rintro l l' ⟨x, hx, hl⟩
  match l with
  | 0 =>
    simp [crossCfg] at hx
    subst hx
    rcases hl with hl | ⟨q, f, h1, h2⟩
    · cases hl
    · cases h1; cases h2; decide
  | 1 =>
    simp [crossCfg] at hx
    subst hx
    rcases hl with hl | ⟨q, f, h1, h2⟩
    · cases hl
    · cases h1; cases h2; decide
  | 2 =>
    simp [crossCfg] at hx
    subst hx
    rcases hl with hl | ⟨q, f, h1, h2⟩
    · cases hl
    · cases h1
  | n + 3 => cases hx

theorem cross_sensible : Sensible crossCfg := by
  intro l a x hx
  match l, a with
  | 0, 0 => cases hx; exact ⟨by simp, by simp, fun q f h => by cases h; exact ⟨1, rfl⟩⟩
  | 1, 0 => cases hx; exact ⟨by simp, by simp, fun q f h => by cases h; exact ⟨1, rfl⟩⟩
  | 2, 0 => cases hx; exact ⟨by simp, by simp, fun q f h => by cases h⟩
  | 0, _ + 1 => cases hx
  | 1, _ + 1 => cases hx
  | 2, _ + 1 => cases hx
  | _ + 3, _ => cases hx

theorem cross_end : crossEnd =
    { jobs := [
        { engine := 2, list := 0, parent := .root, acts := [.running 0], early := some 0 },
        { engine := 0, list := 1, parent := .call 0, acts := [.running 0], early := some 0 },
        { engine := 1, list := 1, parent := .call 1, acts := [.running 0], early := some 0 }],
      calls := [
        { rpc := 0, target := 0, job := 0, action := 0, iter := 0, stage := .running },
        { rpc := 0, target := 1, job := 0, action := 0, iter := 0, stage := .running },
        { rpc := 1, target := 1, job := 1, action := 0, iter := 0, stage := .queued },
        { rpc := 1, target := 0, job := 2, action := 0, iter := 0, stage := .queued }] } := by
  decide +kernel

/-- With limited threads a test can get stuck although no list leads to itself. -/
theorem C228_negation : Sensible crossCfg ∧ Levels crossCfg (fun l => 2 - l) ∧
    (∀ e, crossCfg.threads e ≠ some 0) ∧ TrafficRun crossCfg crossOps crossEnd ∧
    TrafficStuck crossCfg crossEnd ∧ ¬ TrafficOver crossEnd := by
  refine ⟨cross_sensible, cross_levels, fun e => by simp [crossCfg], by unfold TrafficRun; decide +kernel, ?_, ?_⟩
  · rw [cross_end]
    intro op
    cases op with
    | start j a => rcases j with _ | _ | _ | j <;> rcases a with _ | a <;> rfl
    | skip j a => rcases j with _ | _ | _ | j <;> rcases a with _ | a <;> rfl
    | iterate j a t => rcases j with _ | _ | _ | j <;> rcases a with _ | a <;> rfl
    | finish j a => rcases j with _ | _ | _ | j <;> rcases a with _ | a <;> rfl
    | deliver c => rcases c with _ | _ | _ | _ | c <;> rfl
    | dispatch c => rcases c with _ | _ | _ | _ | c <;> rfl
    | endJob j => rcases j with _ | _ | _ | j <;> rfl
    | complete c => rcases c with _ | _ | _ | _ | c <;> rfl
  · intro h
    have := h.1 (crossEnd.jobs[0]?.getD (newJob crossCfg 0 0 .root)) (by decide +kernel)
    revert this
    decide +kernel

/-! ### The latency of an RPC covers all that is done for it (C229) -/

/-- If no action sends the response early, then by the time an RPC is back at its client all RPCs made
for its sake, directly or through others, are back at theirs. -/
theorem C229_nested_partial {cfg : Config} {ops : List Op} {s : State} {c c' : Nat} {r r' : Call}
    (hn : NoEarlyResponse cfg) (h : TrafficRun cfg ops s) (hc : s.calls[c]? = some r)
    (hdone : r.stage = .completed) (hb : CallBelow s c c') (hc' : s.calls[c']? = some r') :
    r'.stage = .completed :=
  (below_ended (inv_run h) (late_run hn h) hc (by rw [hdone]; simp)).2 c' hb r' hc'

example : CallBelow exMid 0 5 :=
  .made (r := { rpc := 1, target := 3, job := 3, action := 0, iter := 0, stage := .completed })
    (by decide +kernel)
    (.action (j' := 1) (a := 1) (i := 0)
      (k := { engine := 1, list := 2, parent := .action 1 1 0, acts := [.finished], early := some 0, over := true })
      (by decide +kernel) rfl
      (.here (k := { engine := 1, list := 1, parent := .call 0, acts := [.finished, .finished], over := true })
        (by decide +kernel) rfl))

example {r : Call} {c' : Nat} {r' : Call} (hc : exMid.calls[0]? = some r) (hd : r.stage = .completed)
    (hb : CallBelow exMid 0 c') (hc' : exMid.calls[c']? = some r') : r'.stage = .completed :=
  C229_nested_partial ex_late ex_mid hc hd hb hc'

/-- A handler that responds after its first action and then makes an RPC. -/
def earlyCfg : Config :=
  { actions := fun
      | 0 => [{ work := .rpc 0 1 }]
      | 1 => [{ work := .other, responds := true }, { work := .rpc 1 1 }]
      | _ => []
    handler := fun q => if q = 0 then some 1 else none
    servers := fun _ _ => true
    threads := fun _ => none
    roots := [(0, 0)] }

def earlyOps : List Op :=
  [.start 0 0, .iterate 0 0 [1], .deliver 0, .dispatch 0, .start 1 0, .start 1 1, .iterate 1 0 [],
   .iterate 1 1 [2], .finish 1 0, .complete 0, .finish 0 0, .endJob 0]

def earlyEnd : State := (run earlyCfg (initial earlyCfg) earlyOps).getD { jobs := [] }

/-- With an early response this is not so. -/
theorem C229_negation : ∃ cfg ops s, TrafficRun cfg ops s ∧ ∃ (c c' : Nat) (r r' : Call),
    s.calls[c]? = some r ∧ r.stage = .completed ∧ CallBelow s c c' ∧ s.calls[c']? = some r' ∧
      r'.stage = .sent := by
  refine ⟨earlyCfg, earlyOps, earlyEnd, by unfold TrafficRun; decide +kernel, 0, 1,
    { rpc := 0, target := 1, job := 0, action := 0, iter := 0, stage := .completed },
    { rpc := 1, target := 2, job := 1, action := 1, iter := 0, stage := .sent },
    by decide +kernel, rfl, ?_, by decide +kernel, rfl⟩
  exact .made (r := { rpc := 1, target := 2, job := 1, action := 1, iter := 0, stage := .sent })
    (by decide +kernel)
    (.here (k := { engine := 1, list := 1, parent := .call 0, acts := [.finished, .running 0], early := some 0 })
      (by decide +kernel) rfl)

/-! ### When the engines report, everything is done (C230) -/

/-- If no action sends the response early, then once the lists with which the engines began are over, all
RPCs of the test are back at their clients and all actions of all lists have ended. -/
theorem C230_done_partial {cfg : Config} {ops : List Op} {s : State} (hn : NoEarlyResponse cfg)
    (h : TrafficRun cfg ops s) (hroot : ∀ k ∈ s.jobs, k.parent = .root → k.over = true) :
    (∀ r ∈ s.calls, r.stage = .completed) ∧ ∀ k ∈ s.jobs, ∀ x ∈ k.acts, x = .finished ∨ x = .skipped := by
  have hI := inv_run h
  have hall := all_ended hI (late_run hn h) hroot
  constructor
  · intro r hr
    obtain ⟨c, hc⟩ := List.getElem?_of_mem hr
    obtain ⟨k, x, fan, y, h1, _⟩ := hI.made c r hc
    exact ended_calls hI hc h1 (hall r.job k h1)
  · intro k hk x hx
    obtain ⟨j, hj⟩ := List.getElem?_of_mem hk
    obtain ⟨a, ha⟩ := List.getElem?_of_mem hx
    have := hall j k hj a x ha
    cases x with
    | waiting => cases this
    | running n => cases this
    | finished => exact .inl rfl
    | skipped => exact .inr rfl

example : ∀ r ∈ exEnd.calls, r.stage = .completed :=
  (C230_done_partial ex_late ex_run (fun k hk _ => ex_over.1 k hk)).1

/-- With an early response the engine that began can be through while RPCs are still on their way. -/
theorem C230_negation : ∃ cfg ops s, TrafficRun cfg ops s ∧
    (∀ k ∈ s.jobs, k.parent = .root → k.over = true) ∧ ∃ r ∈ s.calls, r.stage = .sent := by
  exact ⟨earlyCfg, earlyOps, earlyEnd, by unfold TrafficRun; decide +kernel, by decide +kernel, by decide +kernel⟩

/-! ### Every RPC is handled once (C231) -/

theorem countP_le_one {α : Type} (p : α → Bool) {l : List α}
    (h : ∀ (i j : Nat) (x y : α), l[i]? = some x → l[j]? = some y → p x = true → p y = true → i = j) :
    l.countP p ≤ 1 := by
  induction l with
  | nil => simp
  | cons a l ih =>
    have ih := ih fun i j x y h1 h2 h3 h4 => by
      have := h (i + 1) (j + 1) x y (by simpa using h1) (by simpa using h2) h3 h4
      omega
    rw [List.countP_cons]
    split
    · next ha =>
      have : l.countP p = 0 := by
        rw [List.countP_eq_zero]
        intro x hx hp
        obtain ⟨i, hi⟩ := List.getElem?_of_mem hx
        have := h 0 (i + 1) a x rfl (by simpa using hi) ha hp
        omega
      omega
    · omega

theorem handled_once {R : Nat → Prop} {cfg : Config} {s : State} {c : Nat} {r : Call}
    (hI : Inv cfg R s) (hR : ¬ R c) (hc : s.calls[c]? = some r) :
    (s.jobs.countP fun k => k.parent = .call c) =
        (if cfg.handler r.rpc = none ∨ r.stage = .sent ∨ r.stage = .queued then 0 else 1) ∧
      ∀ k ∈ s.jobs, k.parent = .call c → cfg.handler r.rpc = some k.list ∧ k.engine = r.target := by
  have hp : ∀ k ∈ s.jobs, k.parent = .call c →
      cfg.handler r.rpc = some k.list ∧ k.engine = r.target ∧ r.stage ≠ .sent ∧ r.stage ≠ .queued := by
    intro k hk hpar
    obtain ⟨j, hj⟩ := List.getElem?_of_mem hk
    obtain ⟨r', h1, h2, h3, _, h5, h6, _⟩ := hI.parent j k c hj hpar
    rw [hc] at h1
    cases h1
    exact ⟨h2, h3, h5, h6⟩
  refine ⟨?_, fun k hk hpar => ⟨(hp k hk hpar).1, (hp k hk hpar).2.1⟩⟩
  split
  · next hg =>
    rw [List.countP_eq_zero]
    intro k hk hpar
    obtain ⟨h1, _, h3, h4⟩ := hp k hk (by simpa using hpar)
    rcases hg with hg | hg | hg
    · rw [hg] at h1; cases h1
    · exact h3 hg
    · exact h4 hg
  · next hg =>
    have hle : (s.jobs.countP fun k => k.parent = .call c) ≤ 1 := by
      apply countP_le_one
      intro i j x y h1 h2 h3 h4
      exact hI.unique i j x y c h1 h2 (by simpa using h3) (by simpa using h4)
    have hpos : 0 < s.jobs.countP fun k => k.parent = .call c := by
      cases hh : cfg.handler r.rpc with
      | none => exact absurd (.inl hh) hg
      | some l =>
        obtain ⟨j, k, hj, hpar⟩ := hI.handled c r l hc hh (fun e => hg (.inr (.inl e)))
          (fun e => hg (.inr (.inr e))) (.inr hR)
        rw [List.countP_pos_iff]
        exact ⟨k, List.mem_of_getElem? hj, by simpa using hpar⟩
    omega

/-- The lists that were run for an RPC: none as long as it has not reached a thread of its server, then
exactly one, which is the list that the test names for it, at the engine it was sent to.  An RPC without
such a list is never handled by one. -/
theorem C231_once {cfg : Config} {ops : List Op} {s : State} {c : Nat} {r : Call}
    (h : TrafficRun cfg ops s) (hc : s.calls[c]? = some r) :
    (s.jobs.countP fun k => k.parent = .call c) =
        (if cfg.handler r.rpc = none ∨ r.stage = .sent ∨ r.stage = .queued then 0 else 1) ∧
      ∀ k ∈ s.jobs, k.parent = .call c → cfg.handler r.rpc = some k.list ∧ k.engine = r.target :=
  handled_once (inv_run h) id hc

example : (exMid.jobs.countP fun k => k.parent = .call 0) = 1 :=
  (C231_once ex_mid (c := 0)
    (r := { rpc := 0, target := 1, job := 0, action := 0, iter := 0, stage := .completed })
    (by decide +kernel)).1

end Distbench.Traffic
