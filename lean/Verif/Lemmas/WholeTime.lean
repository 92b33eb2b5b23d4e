import Verif.Spec.WholeTime
import Verif.Lemmas.WholeReport
import Verif.Props.TrafficTime

/-! Lemmas for Props/WholeTime.lean. -/

namespace Distbench.Whole
open Tables Services Spec

variable {R : Nat → Prop}

/-! ### Steps -/

theorem inTime_congr {c c' : Traffic.Config} {L : Nat → List ActionEntry} {f f' : Nat → Nat}
    (h : ∀ l, c.actions l = (L l).map (toAction f)) (h' : ∀ l, c'.actions l = (L l).map (toAction f'))
    (s : Traffic.TState) (op : Traffic.Op) : Traffic.inTime c s op = Traffic.inTime c' s op := by
  cases op with
  | iterate j a t =>
    unfold Traffic.inTime
    dsimp only
    cases s.base.jobs[j]? with
    | none => rfl
    | some job =>
      dsimp only
      rw [h, h', List.getElem?_map, List.getElem?_map]
      cases (L job.list)[a]? with
      | none => rfl
      | some x =>
        cases job.acts[a]? with
        | none => rfl
        | some y => cases y <;> rfl
  | _ => rfl

theorem tstep_congr {c c' : Traffic.Config} {L : Nat → List ActionEntry} {f f' : Nat → Nat}
    (h : ∀ l, c.actions l = (L l).map (toAction f)) (h' : ∀ l, c'.actions l = (L l).map (toAction f'))
    (s : Traffic.TState) (j a : Nat) :
    Traffic.tstep c s (.late j a) = Traffic.tstep c' s (.late j a) ∧
      Traffic.tstep c s (.stop j a) = Traffic.tstep c' s (.stop j a) := by
  unfold Traffic.tstep
  dsimp only
  cases s.base.jobs[j]? with
  | none => exact ⟨rfl, rfl⟩
  | some job =>
    dsimp only
    rw [h, h', List.getElem?_map, List.getElem?_map]
    cases (L job.list)[a]? with
    | none => exact ⟨rfl, rfl⟩
    | some x =>
      cases job.acts[a]? with
      | none => exact ⟨rfl, rfl⟩
      | some y => cases y <;> exact ⟨rfl, rfl⟩

theorem runner_service {w : Test} {F : Nat → Nat} {s : Traffic.State} (hinv : Traffic.Inv (globalConfig w F) R s)
    {j : Nat} {job : Traffic.Job} (hj : s.jobs[j]? = some job) : HasService w (runner s j) := by
  unfold runner
  rw [hj]
  exact mayRun_service (hinv.may j job hj)

/-- Every step of an engine is one of the test as a whole. -/
theorem tstep_global {e : Env} {w : Test} {fan : Str → Nat} (hs : SoundTest e w) (hf : FanOuts w.cfg fan)
    {s s' : Traffic.TState} {op : Traffic.TOp} (hinv : Traffic.Inv (globalConfig w (fanAt w.cfg fan)) R s.base)
    (h : TStep w s op s') : Traffic.tstep (globalConfig w (fanAt w.cfg fan)) s op = some s' := by
  cases op with
  | base op =>
    obtain ⟨hc, h⟩ := h
    obtain ⟨h1, b, h2, rfl⟩ := Traffic.tstep_base h
    have h3 := step_global hs hf hinv ⟨hc, h2⟩
    obtain ⟨x1, x2⟩ := step_exists h2
    rw [inTime_congr (engine_actions hs (engineOf_service hinv x1 x2) _)
      (c' := globalConfig w (fanAt w.cfg fan)) (fun _ => rfl)] at h1
    rw [Traffic.tstep, if_pos h1, h3]
    rfl
  | late j a =>
    have h : Traffic.tstep _ s (.late j a) = some s' := h
    obtain ⟨job, _, _, hj, _⟩ := Traffic.tstep_late h
    rw [(tstep_congr (engine_actions hs (runner_service hinv hj) _)
      (c' := globalConfig w (fanAt w.cfg fan)) (fun _ => rfl) s j a).1] at h
    exact h
  | stop j a =>
    have h : Traffic.tstep _ s (.stop j a) = some s' := h
    obtain ⟨job, _, _, hj, _⟩ := Traffic.tstep_stop h
    rw [(tstep_congr (engine_actions hs (runner_service hinv hj) _)
      (c' := globalConfig w (fanAt w.cfg fan)) (fun _ => rfl) s j a).2] at h
    exact h

/-- What the engines do together is a run of the test as a whole. -/
theorem truns_global {e : Env} {w : Test} {fan : Str → Nat} (hs : SoundTest e w) (hf : FanOuts w.cfg fan)
    {ops : List Traffic.TOp} {s : Traffic.TState} (h : TRuns w ops s) :
    TimedRun (globalConfig w (fanAt w.cfg fan)) ops s := by
  induction h with
  | start => unfold TimedRun; rw [start_global hs (fanAt w.cfg fan)]; rfl
  | step op _ hstep ih =>
    exact Traffic.tsnoc.2 ⟨_, ih, tstep_global hs hf (Traffic.inv_timed ih) hstep⟩

/-- Whenever the test as a whole can take a step, so can some engine. -/
theorem tstep_engine {e : Env} {w : Test} {fan : Str → Nat} (hs : SoundTest e w) (hf : FanOuts w.cfg fan)
    (hc : ClientsDeclared w.cfg) {s s' : Traffic.TState} {op : Traffic.TOp}
    (hinv : Traffic.Inv (globalConfig w (fanAt w.cfg fan)) R s.base) (hop : ∀ j a, op ≠ .late j a)
    (h : Traffic.tstep (globalConfig w (fanAt w.cfg fan)) s op = some s') :
    ∃ op' s'', (∀ j a, op' ≠ .late j a) ∧ TStep w s op' s'' := by
  cases op with
  | base op =>
    obtain ⟨h1, b, h2, rfl⟩ := Traffic.tstep_base h
    obtain ⟨op', s'', hstep, hsame⟩ := step_engine hs hf hc hinv h2
    have h3 : Traffic.inTime (globalConfig w (fanAt w.cfg fan)) s op' = true := by
      rcases hsame with rfl | ⟨j, a, t, t', rfl, rfl⟩
      · exact h1
      · exact h1
    obtain ⟨hch, hst⟩ := hstep
    obtain ⟨x1, x2⟩ := step_exists hst
    rw [← inTime_congr (engine_actions hs (engineOf_service hinv x1 x2) _)
      (c' := globalConfig w (fanAt w.cfg fan)) (fun _ => rfl)] at h3
    refine ⟨.base op', { s with base := s'' }, fun _ _ => by simp, hch, ?_⟩
    rw [Traffic.tstep, if_pos h3, hst]
    rfl
  | late j a => exact absurd rfl (hop j a)
  | stop j a =>
    obtain ⟨job, _, _, hj, _⟩ := Traffic.tstep_stop h
    rw [← (tstep_congr (engine_actions hs (runner_service hinv hj) (fun _ => 0))
      (c' := globalConfig w (fanAt w.cfg fan)) (fun _ => rfl) s j a).2] at h
    exact ⟨.stop j a, s', fun _ _ => by simp, h⟩

/-! ### Numbers of iterations -/

theorem timed_none {F : Nat → Nat} {x : ActionEntry} :
    (toAction F x).timed = none ↔ ¬ hasTimeLimit x.proto := by
  unfold hasTimeLimit toAction Iterations.params
  dsimp only
  cases hi : x.proto.iterations with
  | none => simp
  | some it =>
    dsimp only [Option.getD_some]
    cases hd : it.maxDurationUs with
    | none => simp [hd]
    | some us => simp [hd]

theorem narrow_small {n : Int} (h1 : 0 ≤ n) (h2 : n < 2 ^ 31) : Iterations.narrow n = n := by
  unfold Iterations.narrow
  rw [Int.emod_eq_of_lt] <;> omega

/-- Sensible limits for the iterations of each action. -/
def Limits (cfg : Config) : Prop := ∀ a ∈ cfg.actions, ∀ it, a.iterations = some it → 1 ≤ it.maxParallelIterations ∧
  match it.maxIterationCount with
  | some n => 1 ≤ n ∧ n < 2 ^ 31
  | none => it.maxDurationUs ≠ none ∧ it.maxParallelIterations < 2 ^ 31

/-- The numbers of an action with iterations, by its text. -/
theorem action_numbers {cfg : Config} (hp : Limits cfg) (F : Nat → Nat) {x : ActionEntry}
    (hx : x.proto ∈ cfg.actions) {it : Tables.Iterations} (hi : x.proto.iterations = some it) :
    (toAction F x).iters = (it.maxIterationCount.getD (2 ^ 63 - 1)).toNat ∧
    (Iterations.params x.proto 0 false).openLoop = it.openLoopIntervalNs.isSome ∧
    (Iterations.params x.proto 0 false).copies.toNat = upToCount it it.maxParallelIterations.toNat ∧
    1 ≤ upToCount it it.maxParallelIterations.toNat ∧ 1 ≤ (toAction F x).iters := by
  obtain ⟨h1, h2⟩ := hp _ hx it hi
  unfold upToCount toAction Iterations.params
  rw [hi]
  dsimp only [Option.getD_some]
  cases hc : it.maxIterationCount with
  | none =>
    rw [hc] at h2
    dsimp only [Option.getD_none, Option.getD_some] at h2 ⊢
    have hm : min it.maxParallelIterations (2 ^ 63 - 1) = it.maxParallelIterations := by omega
    rw [hm, narrow_small (by omega) h2.2]
    exact ⟨rfl, rfl, rfl, by omega, by omega⟩
  | some n =>
    rw [hc] at h2
    dsimp only [Option.getD_some] at h2 ⊢
    rw [narrow_small (by omega) (by omega)]
    exact ⟨rfl, rfl, by omega, by omega, by omega⟩

theorem action_single (F : Nat → Nat) {x : ActionEntry} (hi : x.proto.iterations = none) :
    (toAction F x).iters = 1 ∧ (toAction F x).parallel = 1 ∧ (toAction F x).timed = none := by
  refine ⟨?_, ?_, ?_⟩ <;> simp [toAction, Iterations.params, hi, Iterations.narrow]

theorem parallel_timed {cfg : Config} (hp : Limits cfg) (F : Nat → Nat) {x : ActionEntry}
    (hx : x.proto ∈ cfg.actions) : 1 ≤ (toAction F x).parallel := by
  cases hi : x.proto.iterations with
  | none => rw [(action_single F hi).2.1]; exact Nat.le_refl 1
  | some it =>
    obtain ⟨h1, h2, h3, h4, h5⟩ := action_numbers hp F hx hi
    have h5 : 1 ≤ (Iterations.params x.proto 0 false).limit.toNat := h5
    show 1 ≤ if (Iterations.params x.proto 0 false).openLoop then (Iterations.params x.proto 0 false).limit.toNat
      else (Iterations.params x.proto 0 false).copies.toNat
    split <;> omega

/-- The time limit of an action with iterations. -/
theorem timed_some (F : Nat → Nat) {x : ActionEntry} {it : Tables.Iterations} (hi : x.proto.iterations = some it) :
    (toAction F x).timed = match it.maxDurationUs with
      | none => none
      | some _ => some (if (Iterations.params x.proto 0 false).openLoop then 1
          else (Iterations.params x.proto 0 false).copies.toNat) := by
  cases hd : it.maxDurationUs with
  | none => simp [toAction, Iterations.params, hi, hd]
  | some us => simp [toAction, Iterations.params, hi, hd]

theorem fewest_text {cfg : Config} (hp : Limits cfg) (F : Nat → Nat) {x : ActionEntry}
    (hx : x.proto ∈ cfg.actions) :
    Traffic.atLeast (toAction F x) = fewestIterations x.proto := by
  unfold Traffic.atLeast fewestIterations
  cases hi : x.proto.iterations with
  | none =>
    obtain ⟨h1, -, h3⟩ := action_single F hi
    rw [h3, h1]
  | some it =>
    obtain ⟨h1, h2, h3, h4, h5⟩ := action_numbers hp F hx hi
    obtain ⟨g1, g2⟩ := hp _ hx it hi
    rw [timed_some F hi]
    dsimp only
    cases hd : it.maxDurationUs with
    | none =>
      dsimp only
      rw [h1]
      cases hc : it.maxIterationCount with
      | none => rw [hc] at g2; exact absurd hd g2.1
      | some n => rfl
    | some us =>
      dsimp only
      rw [h2, h3]
      split
      · omega
      · have : upToCount it it.maxParallelIterations.toNat ≤ (toAction F x).iters := by
          rw [h1]
          unfold upToCount
          cases hc : it.maxIterationCount with
          | none => rw [hc] at g2; dsimp only [Option.getD_none] at g2 ⊢; omega
          | some n => dsimp only [Option.getD_some]; omega
        omega

/-- The most iterations of an action, if there is time for `n`. -/
def inTimeFor (n : Nat) (x : Traffic.Action) : Nat :=
  match x.timed with
  | none => x.iters
  | some _ => if x.iters = 2 ^ 63 - 1 then n else min n x.iters

theorem most_text {cfg : Config} (hp : Limits cfg) (F : Nat → Nat) {x : ActionEntry}
    (hx : x.proto ∈ cfg.actions) (n : Nat) : inTimeFor n (toAction F x) = mostIterations n x.proto := by
  unfold inTimeFor mostIterations
  cases hi : x.proto.iterations with
  | none =>
    obtain ⟨h1, -, h3⟩ := action_single F hi
    rw [h3, h1]
  | some it =>
    obtain ⟨h1, h2, h3, h4, h5⟩ := action_numbers hp F hx hi
    obtain ⟨g1, g2⟩ := hp _ hx it hi
    rw [timed_some F hi]
    dsimp only
    cases hd : it.maxDurationUs with
    | none =>
      dsimp only
      rw [h1]
      cases hc : it.maxIterationCount with
      | none => rw [hc] at g2; exact absurd hd g2.1
      | some n => rfl
    | some us =>
      dsimp only
      rw [h1]
      unfold upToCount
      cases hc : it.maxIterationCount with
      | none => rw [if_pos (by rfl)]
      | some c =>
        rw [hc] at g2
        dsimp only [Option.getD_some] at g2 ⊢
        rw [if_neg (by omega)]

/-! ### Predictions -/

theorem list_by {e : Env} {w : Test} {I : Action → Nat} {N : Traffic.Action → Nat} {fan ps : Str → Nat}
    {pn : Nat → Nat} {q : Nat} {r : RpcSpec} (hs : SoundTest e w)
    (hN : ∀ x : ActionEntry, x.proto ∈ w.cfg.actions → N (toAction (fanAt w.cfg fan) x) = I x.proto)
    (hn : Named w.cfg pn ps)
    (hempty : ∀ al ∈ w.cfg.actionLists, al.actionNames = [] → ps al.name = 0)
    (hr : w.cfg.rpcs[q]? = some r) {l : Nat} {al : ActionList} (hl : w.cfg.actionLists[l]? = some al) :
    ((withIterations N (globalConfig w (fanAt w.cfg fan))).actions l).map (fun x => x.iters * match x.work with
      | .rpc q' f => f * ((if q' = q then 1 else 0) +
          match (withIterations N (globalConfig w (fanAt w.cfg fan))).handler q' with
          | none => 0
          | some l' => pn l')
      | .list l' => pn l'
      | .other => 0) =
    al.actionNames.map fun n => match actionNamed w.cfg n with
      | none => 0
      | some a => I a * match a.kind with
          | .rpc q => fan q * ((if q = r.name then 1 else 0) + ps q)
          | .actionList l' => ps l'
          | _ => 0 := by
  have hlen := actionsOf_length hs hl
  show (((actionsOf (w.tables 0) l).map (toAction (fanAt w.cfg fan))).map _).map _ = _
  rw [List.map_map, List.map_map]
  apply List.ext_getElem?
  intro a
  rw [List.getElem?_map, List.getElem?_map]
  cases hx : (actionsOf (w.tables 0) l)[a]? with
  | none =>
    rw [List.getElem?_eq_none_iff] at hx
    rw [List.getElem?_eq_none (by omega)]
    rfl
  | some x =>
    obtain ⟨al', h1, h2, h3, -⟩ := entry_at hs hx
    rw [hl] at h1
    cases h1
    rw [h2, Option.map_some, Option.map_some]
    congr 1
    have hfind : actionNamed w.cfg x.proto.name = some x.proto := find_named hs.distinct.actions h3 rfl
    rw [hfind]
    have hw := entry_worth (fan := fan) hs hn hempty hr hx
    show N (toAction (fanAt w.cfg fan) x) * _ = I x.proto * _
    rw [hN x h3]
    congr 1

theorem predicts_by {e : Env} {w : Test} {I : Action → Nat} {N : Traffic.Action → Nat} {fan ps : Str → Nat}
    {pn : Nat → Nat} {q : Nat} {r : RpcSpec} (hs : SoundTest e w)
    (hN : ∀ x : ActionEntry, x.proto ∈ w.cfg.actions → N (toAction (fanAt w.cfg fan) x) = I x.proto)
    (hn : Named w.cfg pn ps) (h : PredictsBy w.cfg I fan r.name ps) (hr : w.cfg.rpcs[q]? = some r) :
    Predicts (withIterations N (globalConfig w (fanAt w.cfg fan))) q pn := by
  intro l
  cases hl : w.cfg.actionLists[l]? with
  | none =>
    rw [hn.2 l hl]
    show 0 = ((((actionsOf (w.tables 0) l).map (toAction (fanAt w.cfg fan))).map _).map _).sum
    rw [actionsOf_none hs hl]
    rfl
  | some al =>
    have hempty : ∀ al ∈ w.cfg.actionLists, al.actionNames = [] → ps al.name = 0 := by
      intro al hal he
      rw [h al hal, he]
      rfl
    exact (hn.1 l al hl).trans ((h al (List.mem_of_getElem? hl)).trans
      (congrArg List.sum (list_by hs hN hn hempty hr hl).symm))

theorem by_names {e : Env} {w : Test} {I : Action → Nat} {N : Traffic.Action → Nat} {fan ps : Str → Nat}
    {pn : Nat → Nat} {q : Nat} {r : RpcSpec} (hs : SoundTest e w)
    (hN : ∀ x : ActionEntry, x.proto ∈ w.cfg.actions → N (toAction (fanAt w.cfg fan) x) = I x.proto)
    (hn : Named w.cfg pn ps) (h : Predicts (withIterations N (globalConfig w (fanAt w.cfg fan))) q pn)
    (hr : w.cfg.rpcs[q]? = some r) : PredictsBy w.cfg I fan r.name ps := by
  have hempty : ∀ al ∈ w.cfg.actionLists, al.actionNames = [] → ps al.name = 0 := by
    intro al hal he
    obtain ⟨l, hl⟩ := List.getElem?_of_mem hal
    rw [← hn.1 l al hl, h l]
    have : actionsOf (w.tables 0) l = [] := by
      apply List.length_eq_zero_iff.1
      rw [actionsOf_length hs hl, he]
      rfl
    show ((((actionsOf (w.tables 0) l).map (toAction (fanAt w.cfg fan))).map _).map _).sum = 0
    rw [this]
    rfl
  intro al hal
  obtain ⟨l, hl⟩ := List.getElem?_of_mem hal
  exact (hn.1 l al hl).symm.trans ((h l).trans (congrArg List.sum (list_by hs hN hn hempty hr hl)))

/-- No action begins more iterations than there is time for. -/
theorem begins_timeFor {e : Env} {w : Test} {F : Nat → Nat} {n : Nat} {ops : List Traffic.TOp}
    {s : Traffic.TState} (hs : SoundTest e w) (h : TimedRun (globalConfig w F) ops s)
    (hl : TimeFor w.cfg n ops s) : BeginsAtMost (globalConfig w F) (inTimeFor n) ops s := by
  intro j job a x hj hx
  have h1 : timedIterations ops j a ≤ x.iters := Traffic.begins_iters h j job a x hj hx
  unfold inTimeFor
  cases ht : x.timed with
  | none => exact h1
  | some m =>
    have hx : ((actionsOf (w.tables 0) job.list).map (toAction F))[a]? = some x := hx
    rw [List.getElem?_map] at hx
    obtain ⟨y, hy, rfl⟩ := Option.map_eq_some_iff.1 hx
    obtain ⟨al, k1, k2, k3, -⟩ := entry_at hs hy
    have hlim : hasTimeLimit y.proto := by
      apply Classical.byContradiction
      intro hno
      rw [timed_none.2 hno] at ht
      cases ht
    have := hl j job al a _ _ hj k1 k2 (find_named hs.distinct.actions k3 rfl) hlim
    dsimp only
    split
    · exact this
    · exact Nat.le_min.2 ⟨this, h1⟩

/-- A run without regard to time is one in which no time limit passes. -/
theorem runs_truns {w : Test} {ops : List Traffic.Op} {s : Traffic.State} (h : Runs w ops s) :
    TRuns w (ops.map .base) { base := s } := by
  induction h with
  | start => exact .start
  | @step ops s s' op h hstep ih =>
    rw [List.map_append]
    refine .step (.base op) ih ⟨hstep.1, ?_⟩
    rw [Traffic.tstep, if_pos (Traffic.inTime_free _ s op)]
    dsimp only
    rw [hstep.2]
    rfl

end Distbench.Whole
