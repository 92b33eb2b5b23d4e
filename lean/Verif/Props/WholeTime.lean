import Verif.Lemmas.WholeTime
import Verif.Props.Whole

/-! Properties of whole tests with time limits, from the text of the configuration: C255-C258. -/

namespace Distbench.Whole
open Tables Services Spec

/-! ### A concrete test -/

/-- As `exConfig`, but the clients ask for one second, two at a time, and then go on; for each question a server
writes to the store every millisecond, for two milliseconds, but not more than three times. -/
def timeConfig : Config :=
  { exConfig with
    actions := [{ name := "ask".toList, kind := .rpc "query".toList
                  iterations := some { maxDurationUs := some 1000000, maxParallelIterations := 2 } },
                { name := "again".toList, kind := .actionList "sub".toList
                  dependencies := ["ask".toList] },
                { name := "one".toList, kind := .rpc "query".toList },
                { name := "keep".toList, kind := .rpc "save".toList
                  iterations := some { maxIterationCount := some 3, maxDurationUs := some 2000
                                       openLoopIntervalNs := some 1000000 } }] }

/-- The least numbers of RPCs that lists lead to. -/
def timeFewest (rpc n : Str) : Nat :=
  if rpc = "save".toList then
    if n = "client".toList then 9 else if n = "sub".toList then 3 else if n = "query".toList then 1 else 0
  else if n = "client".toList then 9 else if n = "sub".toList then 3 else 0

/-- The greatest ones, if there is time for five iterations. -/
def timeMost (rpc n : Str) : Nat :=
  if rpc = "save".toList then
    if n = "client".toList then 54 else if n = "sub".toList then 9 else if n = "query".toList then 3 else 0
  else if n = "client".toList then 18 else if n = "sub".toList then 3 else 0

theorem time_plain : TimeTest timeConfig := by
  refine ⟨by decide, by decide, ?_, ?_, ?_, by decide⟩
  · intro a ha
    simp only [timeConfig, List.mem_cons, List.not_mem_nil, or_false] at ha
    rcases ha with rfl | rfl | rfl | rfl <;> exact ⟨fun n h => (by cases h), fun h => (by cases h)⟩
  · intro a ha it hi
    simp only [timeConfig, List.mem_cons, List.not_mem_nil, or_false] at ha
    rcases ha with rfl | rfl | rfl | rfl <;> cases hi
    · exact ⟨by decide, by simp, by decide⟩
    · exact ⟨by decide, by decide, by decide⟩
  · intro a ha it n hi hk
    simp only [timeConfig, List.mem_cons, List.not_mem_nil, or_false] at ha
    rcases ha with rfl | rfl | rfl | rfl <;> cases hk

theorem time_sound : ∃ tables, SoundTest sampleEnv ⟨timeConfig, tables, exThreads⟩ :=
  C245_accepted (raw := { timeConfig with services := exText.services }) ex_fields rfl rfl
    ⟨by decide, by decide, by decide, by decide, by decide⟩ (by simp [timeConfig, exConfig]) exThreads

theorem time_fan : FanOuts timeConfig exFan := ex_fan

theorem time_fewest : ∀ r ∈ timeConfig.rpcs, PredictsBy timeConfig fewestIterations exFan r.name (timeFewest r.name) := by
  intro r hr
  simp only [timeConfig, exConfig, List.mem_cons, List.not_mem_nil, or_false] at hr
  rcases hr with rfl | rfl <;> intro l hl <;>
    simp only [timeConfig, exConfig, List.mem_cons, List.not_mem_nil, or_false] at hl <;>
    rcases hl with rfl | rfl | rfl | rfl <;> decide +kernel

theorem time_most : ∀ r ∈ timeConfig.rpcs, PredictsBy timeConfig (mostIterations 5) exFan r.name (timeMost r.name) := by
  intro r hr
  simp only [timeConfig, exConfig, List.mem_cons, List.not_mem_nil, or_false] at hr
  rcases hr with rfl | rfl <;> intro l hl <;>
    simp only [timeConfig, exConfig, List.mem_cons, List.not_mem_nil, or_false] at hl <;>
    rcases hl with rfl | rfl | rfl | rfl <;> decide +kernel

theorem time_totals : predictedTotal timeConfig (timeFewest exConfig.rpcs[0].name) = 18 ∧
    predictedTotal timeConfig (timeFewest exConfig.rpcs[1].name) = 18 ∧
    predictedTotal timeConfig (timeMost exConfig.rpcs[0].name) = 36 ∧
    predictedTotal timeConfig (timeMost exConfig.rpcs[1].name) = 108 := by decide +kernel

theorem time_levels : NameLevels timeConfig exLevel := by
  rintro l l' ⟨al, hal, rfl, n, hn, a, ha, rfl, hk⟩
  simp only [timeConfig, exConfig, List.mem_cons, List.not_mem_nil, or_false] at hal ha
  rcases hal with rfl | rfl | rfl | rfl <;> rcases ha with rfl | rfl | rfl | rfl <;>
    first
    | exact absurd hn (by decide)
    | (rcases hk with hk | hk <;> cases hk <;> decide)

/-- Only names and kinds of actions matter for which service may run which list. -/
theorem time_may {s l : Str} (h : MayRunName timeConfig s l) : MayRunName exConfig s l := by
  induction h with
  | own hs => exact .own hs
  | serves hr => exact .serves hr
  | @nested s l al a hmay hal ha hn hk ih =>
    simp only [timeConfig, List.mem_cons, List.not_mem_nil, or_false] at ha
    rcases ha with rfl | rfl | rfl | rfl <;> cases hk
    exact .nested ih hal (a := exConfig.actions[1]) (by decide) hn rfl

theorem time_clients : ClientsDeclared timeConfig := by
  intro s al a r hm hal ha hn hr hk
  simp only [timeConfig, List.mem_cons, List.not_mem_nil, or_false] at ha
  rcases ha with rfl | rfl | rfl | rfl
  · exact ex_clients s al exConfig.actions[0] r (time_may hm) hal (by decide) hn hr hk
  · cases hk
  · exact ex_clients s al exConfig.actions[2] r (time_may hm) hal (by decide) hn hr hk
  · exact ex_clients s al exConfig.actions[3] r (time_may hm) hal (by decide) hn hr hk

theorem time_layered (tables : Nat → Tables) : LayeredServices ⟨timeConfig, tables, exThreads⟩ exLayer :=
  ex_layered tables

/-! ### The number of RPCs (C255) -/

/-- When a test with time limits is over, it has made at least the number of RPCs with each name that its
configuration adds up to if each time limit allows only the iterations that begin in any case. -/
theorem C255_at_least {e : Env} {w : Test} {fan predicted : Str → Nat} {r : RpcSpec} {ops : List Traffic.TOp}
    {s : Traffic.TState} (hs : SoundTest e w) (hp : TimeTest w.cfg) (hf : FanOuts w.cfg fan)
    (hr : r ∈ w.cfg.rpcs) (hn : PredictsBy w.cfg fewestIterations fan r.name predicted) (h : TRuns w ops s)
    (ho : TrafficOver s.base) : predictedTotal w.cfg predicted ≤ madeNamed w.cfg s.base r.name := by
  obtain ⟨q, hq⟩ := List.getElem?_of_mem hr
  rw [made_named hs.distinct hq, ← roots_sum]
  exact Traffic.C248_at_least
    (predicts_by hs (N := Traffic.atLeast) (fun x hx => fewest_text hp.limited _ hx) (named_byPlace _ _) hn hq)
    (unconditional hs hp.predicates _) (truns_global hs hf h) ho

/-- At no time has it made more than the configuration adds up to if each time limit allows as many iterations
as there was time for. -/
theorem C255_at_most {e : Env} {w : Test} {n : Nat} {fan predicted : Str → Nat} {r : RpcSpec}
    {ops : List Traffic.TOp} {s : Traffic.TState} (hs : SoundTest e w) (hp : TimeTest w.cfg)
    (hf : FanOuts w.cfg fan) (hr : r ∈ w.cfg.rpcs)
    (hn : PredictsBy w.cfg (mostIterations n) fan r.name predicted) (h : TRuns w ops s)
    (ht : TimeFor w.cfg n ops s) : madeNamed w.cfg s.base r.name ≤ predictedTotal w.cfg predicted := by
  obtain ⟨q, hq⟩ := List.getElem?_of_mem hr
  rw [made_named hs.distinct hq, ← roots_sum]
  have hg := truns_global hs hf h
  have := Traffic.rpcs_leftN
    (predicts_by hs (N := inTimeFor n) (fun x hx => most_text hp.limited _ hx n) (named_byPlace _ _) hn hq) hg
    (begins_timeFor hs hg ht)
  exact Nat.le_trans (Nat.le_add_right _ _) this

/-- There are such predictions whenever no list leads to itself. -/
theorem C255_predicted {e : Env} {w : Test} {level : Str → Nat} (hs : SoundTest e w) (hp : TimeTest w.cfg)
    (hl : NameLevels w.cfg level) (fan : Str → Nat) {r : RpcSpec} (hr : r ∈ w.cfg.rpcs) (n : Nat) :
    (∃ predicted, PredictsBy w.cfg fewestIterations fan r.name predicted) ∧
      ∃ predicted, PredictsBy w.cfg (mostIterations n) fan r.name predicted := by
  obtain ⟨q, hq⟩ := List.getElem?_of_mem hr
  have key : ∀ (I : Action → Nat) (N : Traffic.Action → Nat),
      (∀ x : ActionEntry, x.proto ∈ w.cfg.actions → N (toAction (fanAt w.cfg fan) x) = I x.proto) →
      ∃ predicted, PredictsBy w.cfg I fan r.name predicted := by
    intro I N hN
    obtain ⟨pn, h⟩ := Traffic.C226_predicted (Traffic.levels_with N (levels_global hs hl (fanAt w.cfg fan))) q
    refine ⟨byName w.cfg pn, by_names hs hN (named_byName hs.distinct fun l hl => ?_) h hq⟩
    rw [h l]
    show ((((actionsOf (w.tables 0) l).map (toAction (fanAt w.cfg fan))).map _).map _).sum = 0
    rw [actionsOf_none hs hl]
    rfl
  exact ⟨key _ Traffic.atLeast fun x hx => fewest_text hp.limited _ hx, key _ (inTimeFor n) fun x hx => most_text hp.limited _ hx n⟩

example {tables : Nat → Tables} (hs : SoundTest sampleEnv ⟨timeConfig, tables, exThreads⟩) {ops : List Traffic.TOp}
    {s : Traffic.TState} (h : TRuns ⟨timeConfig, tables, exThreads⟩ ops s) (ho : TrafficOver s.base) :
    18 ≤ madeNamed timeConfig s.base "save".toList := by
  rw [← time_totals.2.1]
  exact C255_at_least hs time_plain time_fan ex_save (time_fewest _ ex_save) h ho

example {tables : Nat → Tables} (hs : SoundTest sampleEnv ⟨timeConfig, tables, exThreads⟩) {ops : List Traffic.TOp}
    {s : Traffic.TState} (h : TRuns ⟨timeConfig, tables, exThreads⟩ ops s) (ht : TimeFor timeConfig 5 ops s) :
    madeNamed timeConfig s.base "save".toList ≤ 108 := by
  rw [← time_totals.2.2.2]
  exact C255_at_most hs time_plain time_fan ex_save (time_most _ ex_save) h ht

example {tables : Nat → Tables} (hs : SoundTest sampleEnv ⟨timeConfig, tables, exThreads⟩) :
    ∃ predicted, PredictsBy timeConfig (mostIterations 7) exFan "query".toList predicted :=
  (C255_predicted hs time_plain time_levels exFan ex_query 7).2

/-- For every run there is such a number of iterations. -/
theorem timeFor_some (cfg : Config) (ops : List Traffic.TOp) (s : Traffic.TState) :
    TimeFor cfg ops.length ops s := fun _ _ _ _ _ _ _ _ _ _ _ => List.countP_le_length

/-! ### A test with time limits ends (C256) -/

/-- If no list leads to itself, the number of steps of a test is bounded, by how many iterations there is time
for. -/
theorem C256_ends {e : Env} {w : Test} {fan level : Str → Nat} (hs : SoundTest e w) (hf : FanOuts w.cfg fan)
    (hl : NameLevels w.cfg level) (n : Nat) :
    ∃ bound, ∀ ops s, TRuns w ops s → TimeFor w.cfg n ops s → timedSteps ops ≤ bound := by
  have hlev := Traffic.levels_with (inTimeFor n) (levels_global hs hl (fanAt w.cfg fan))
  obtain ⟨D, hD⟩ : ∃ D, Traffic.Solves _ Traffic.countSteps D := ⟨_, Traffic.solves_levels Traffic.countSteps hlev⟩
  refine ⟨((roots w.cfg).map fun x => D x.2).sum, fun ops s h ht => ?_⟩
  have hg := truns_global hs hf h
  exact Nat.le_trans (Nat.le_add_right _ _) (Traffic.steps_leftN hD hg (begins_timeFor hs hg ht))

/-- When nothing more can happen, except that time limits pass, all lists are over and all RPCs are back,
provided that each service is a client of the RPCs it makes and engines with limited threads are only called
from higher services. -/
theorem C256_stuck {e : Env} {w : Test} {fan layer : Str → Nat} {ops : List Traffic.TOp} {s : Traffic.TState}
    (hs : SoundTest e w) (hp : TimeTest w.cfg) (hf : FanOuts w.cfg fan) (hc : ClientsDeclared w.cfg)
    (hy : LayeredServices w layer) (hz : ∀ e, w.threads e ≠ some 0) (h : TRuns w ops s)
    (hstuck : StuckInTime w s) : TrafficOver s.base := by
  have hg := truns_global hs hf h
  refine Traffic.C251_stuck_partial (sensible_global hs (fun _ => parallel_timed hp.limited _) hf)
    (layered_global hs hc hy _) hz hg ?_
  intro op hop
  cases hst : Traffic.tstep (globalConfig w (fanAt w.cfg fan)) s op with
  | none => rfl
  | some s' =>
    obtain ⟨op', s'', hl, hstep⟩ := tstep_engine hs hf hc (Traffic.inv_timed hg) hop hst
    exact absurd hstep (hstuck op' s'' hl)

/-- If besides no list leads to itself, every run can be continued until all is over. -/
theorem C256_finish {e : Env} {w : Test} {fan layer level : Str → Nat} {ops : List Traffic.TOp}
    {s : Traffic.TState} (hs : SoundTest e w) (hp : TimeTest w.cfg) (hf : FanOuts w.cfg fan)
    (hl : NameLevels w.cfg level) (hc : ClientsDeclared w.cfg) (hy : LayeredServices w layer)
    (hz : ∀ e, w.threads e ≠ some 0) (h : TRuns w ops s) :
    ∃ ops' s', TRuns w (ops ++ ops') s' ∧ TrafficOver s'.base := by
  obtain ⟨bound, hb⟩ := Traffic.C249_ends (levels_global hs hl (fanAt w.cfg fan))
  have : ∀ n ops s, TRuns w ops s → bound - timedSteps ops = n →
      ∃ ops' s', TRuns w (ops ++ ops') s' ∧ TrafficOver s'.base := by
    intro n
    induction n using Nat.strongRecOn with
    | ind n ih =>
      intro ops s h hn
      by_cases hst : StuckInTime w s
      · exact ⟨[], s, by rw [List.append_nil]; exact h, C256_stuck hs hp hf hc hy hz h hst⟩
      · have : ∃ op s', (∀ j a, op ≠ .late j a) ∧ TStep w s op s' := by
          apply Classical.byContradiction
          intro hno
          exact hst fun op s' hop hstep => hno ⟨op, s', hop, hstep⟩
        obtain ⟨op, s', hop, hstep⟩ := this
        have hr := TRuns.step op h hstep
        have hlen := hb _ _ (truns_global hs hf hr)
        have hone : timedSteps (ops ++ [op]) = timedSteps ops + 1 := by
          unfold timedSteps
          rw [List.countP_append]
          cases op with
          | late j a => exact absurd rfl (hop j a)
          | base op => rfl
          | stop j a => rfl
        obtain ⟨ops', s'', k1, k2⟩ := ih (bound - timedSteps (ops ++ [op])) (by omega) _ _ hr rfl
        exact ⟨op :: ops', s'', by rw [List.append_cons]; exact k1, k2⟩
  exact this _ ops s h rfl

/-- The example ends, with at least 18 queries and 18 saves. -/
theorem time_ends : ∃ tables ops s, SoundTest sampleEnv ⟨timeConfig, tables, exThreads⟩ ∧
    TRuns ⟨timeConfig, tables, exThreads⟩ ops s ∧ TrafficOver s.base ∧
    18 ≤ madeNamed timeConfig s.base "query".toList ∧ 18 ≤ madeNamed timeConfig s.base "save".toList := by
  obtain ⟨tables, hs⟩ := time_sound
  obtain ⟨ops, s, h, ho⟩ := C256_finish hs time_plain time_fan time_levels time_clients (time_layered tables)
    ex_threads .start
  refine ⟨tables, _, s, hs, h, ho, ?_, ?_⟩
  · have := C255_at_least hs time_plain time_fan ex_query (time_fewest _ ex_query) h ho
    exact Nat.le_trans (Nat.le_of_eq time_totals.1.symm) this
  · have := C255_at_least hs time_plain time_fan ex_save (time_fewest _ ex_save) h ho
    exact Nat.le_trans (Nat.le_of_eq time_totals.2.1.symm) this

example {tables : Nat → Tables} (hs : SoundTest sampleEnv ⟨timeConfig, tables, exThreads⟩) :
    ∃ bound, ∀ ops s, TRuns ⟨timeConfig, tables, exThreads⟩ ops s → TimeFor timeConfig 5 ops s →
      timedSteps ops ≤ bound := C256_ends hs time_fan time_levels 5

example {tables : Nat → Tables} (hs : SoundTest sampleEnv ⟨timeConfig, tables, exThreads⟩) {ops : List Traffic.TOp}
    {s : Traffic.TState} (h : TRuns ⟨timeConfig, tables, exThreads⟩ ops s)
    (hst : StuckInTime ⟨timeConfig, tables, exThreads⟩ s) : TrafficOver s.base :=
  C256_stuck hs time_plain time_fan time_clients (time_layered tables) ex_threads h hst

/-! ### The summary of a test with time limits (C257) -/

/-- The number of samples that the summary gives is the number of RPCs that were made. -/
theorem C257_total {e : Env} {w : Test} {fan : Str → Nat} {ops : List Traffic.TOp} {s : Traffic.TState}
    {engines : List Nat} {failed warmup : Nat → Bool} {res : Summary.Result} {lines : List Summary.Line} {n : Int}
    (hs : SoundTest e w) (hf : FanOuts w.cfg fan) (hnames : PlainNames w.cfg)
    (hu : UnlimitedSamples w.cfg) (hall : AllInstances w.cfg engines) (h : TRuns w ops s) (ho : TrafficOver s.base)
    (hres : Report.Collected (setupOf w failed warmup) (w.cfg.rpcs.map (·.name)) engines s.base res)
    (hl : Summary.summarize res = .ok lines) (hm : .totalSamples n ∈ lines) :
    n = ((w.cfg.rpcs.map fun r => madeNamed w.cfg s.base r.name).sum : Nat) := by
  have hinv := Traffic.inv_timed (truns_global hs hf h)
  have hpl := Report.placed (deployed hs hnames hall failed warmup _) hinv
  rw [(Summary.C129_counts (Report.keyed_collected hpl hres) hl n).1 hm]
  have h1 := Report.total_samples res
  rw [Report.total_collected hpl ho (Report.has_job hinv) (no_limit hu failed warmup s.base) hres, Report.sum_ones,
    List.length_zipIdx, Report.calls_kinds (all_kinds hs (fanAt w.cfg fan)).1 (Report.kind_known hinv (all_kinds hs _))] at h1
  have h2 : ((List.range w.cfg.rpcs.length).map fun q => rpcsMade s.base q) =
      w.cfg.rpcs.map fun r => madeNamed w.cfg s.base r.name := by
    apply List.ext_getElem?
    intro q
    rw [List.getElem?_map, List.getElem?_map]
    cases hq : w.cfg.rpcs[q]? with
    | none =>
      rw [List.getElem?_eq_none (by rw [List.length_range]; exact List.getElem?_eq_none_iff.1 hq)]
      rfl
    | some r =>
      rw [List.getElem?_range (List.getElem?_eq_some_iff.1 hq).1, Option.map_some, Option.map_some,
        made_named hs.distinct hq]
  rw [h2] at h1
  omega

/-- If nothing fails and there is no warmup, the number in the latency line of an RPC is the number of RPCs with
this name that were made. -/
theorem C257_line {e : Env} {w : Test} {fan : Str → Nat} {r : RpcSpec} {ops : List Traffic.TOp}
    {s : Traffic.TState} {engines : List Nat} {res : Summary.Result} {lines : List Summary.Line} {n : Nat}
    {stats : Option Summary.Stats} (hs : SoundTest e w) (hf : FanOuts w.cfg fan)
    (hr : r ∈ w.cfg.rpcs) (hnames : PlainNames w.cfg) (hu : UnlimitedSamples w.cfg)
    (hall : AllInstances w.cfg engines) (h : TRuns w ops s) (ho : TrafficOver s.base)
    (hres : Report.Collected (setupOf w (fun _ => false) fun _ => false) (w.cfg.rpcs.map (·.name)) engines s.base res)
    (hl : Summary.summarize res = .ok lines) (hm : .latency r.name n stats ∈ lines) :
    n = madeNamed w.cfg s.base r.name := by
  obtain ⟨q, hq⟩ := List.getElem?_of_mem hr
  have hg := truns_global hs hf h
  rw [Report.C252_measured (deployed hs hnames hall _ _ _) hg ho (no_limit hu _ _ s.base) hres hl hm,
    measuredRpcs, madeNamed]
  have h1 : s.base.calls = s.base.calls.zipIdx.map Prod.fst := (List.zipIdx_map_fst ..).symm
  conv => rhs; rw [h1]
  rw [List.countP_map]
  refine List.countP_congr fun x hx => ?_
  have hx := List.mem_of_getElem? (List.mem_zipIdx_iff_getElem?.1 hx)
  have hk := Report.kind_known (Traffic.inv_timed hg) (all_kinds hs _) _ hx
  rw [List.mem_range] at hk
  have hk := List.getElem?_eq_getElem hk
  simp [Function.comp, setupOf, hk, List.getD_eq_getElem?_getD]

/-- So both are at least what the configuration adds up to with the iterations that begin in any case, and at
most what it adds up to with those that there was time for. -/
theorem C257_between {e : Env} {w : Test} {k : Nat} {fan : Str → Nat} {low high : Str → Nat} {r : RpcSpec}
    {ops : List Traffic.TOp} {s : Traffic.TState} {engines : List Nat} {res : Summary.Result}
    {lines : List Summary.Line} {n : Nat} {stats : Option Summary.Stats} (hs : SoundTest e w)
    (hp : TimeTest w.cfg) (hf : FanOuts w.cfg fan) (hr : r ∈ w.cfg.rpcs)
    (h1 : PredictsBy w.cfg fewestIterations fan r.name low)
    (h2 : PredictsBy w.cfg (mostIterations k) fan r.name high) (hnames : PlainNames w.cfg)
    (hu : UnlimitedSamples w.cfg) (hall : AllInstances w.cfg engines) (h : TRuns w ops s)
    (ht : TimeFor w.cfg k ops s) (ho : TrafficOver s.base)
    (hres : Report.Collected (setupOf w (fun _ => false) fun _ => false) (w.cfg.rpcs.map (·.name)) engines s.base res)
    (hl : Summary.summarize res = .ok lines) (hm : .latency r.name n stats ∈ lines) :
    predictedTotal w.cfg low ≤ n ∧ n ≤ predictedTotal w.cfg high := by
  rw [C257_line hs hf hr hnames hu hall h ho hres hl hm]
  exact ⟨C255_at_least hs hp hf hr h1 h ho, C255_at_most hs hp hf hr h2 h ht⟩

example {tables : Nat → Tables} (hs : SoundTest sampleEnv ⟨timeConfig, tables, exThreads⟩) {ops : List Traffic.TOp}
    {s : Traffic.TState} {res : Summary.Result} {lines : List Summary.Line} {n : Nat} {stats : Option Summary.Stats}
    (h : TRuns ⟨timeConfig, tables, exThreads⟩ ops s) (ht : TimeFor timeConfig 5 ops s) (ho : TrafficOver s.base)
    (hres : Report.Collected (setupOf ⟨timeConfig, tables, exThreads⟩ (fun _ => false) fun _ => false)
      ["query".toList, "save".toList] [5, 0, 2, 3, 4, 1] s.base res)
    (hl : Summary.summarize res = .ok lines) (hm : .latency "save".toList n stats ∈ lines) : 18 ≤ n ∧ n ≤ 108 := by
  have := C257_between hs time_plain time_fan ex_save (time_fewest _ ex_save) (time_most _ ex_save) ex_slashes
    ex_unlimited ex_instances h ht ho hres hl hm
  rw [← time_totals.2.1, ← time_totals.2.2.2]
  exact this

example {tables : Nat → Tables} (hs : SoundTest sampleEnv ⟨timeConfig, tables, exThreads⟩) {ops : List Traffic.TOp}
    {s : Traffic.TState} {res : Summary.Result} {lines : List Summary.Line} {n : Int}
    (h : TRuns ⟨timeConfig, tables, exThreads⟩ ops s) (ho : TrafficOver s.base)
    (hres : Report.Collected (setupOf ⟨timeConfig, tables, exThreads⟩ (fun _ => false) fun _ => false)
      ["query".toList, "save".toList] [5, 0, 2, 3, 4, 1] s.base res)
    (hl : Summary.summarize res = .ok lines) (hm : .totalSamples n ∈ lines) :
    n = (madeNamed timeConfig s.base "query".toList + madeNamed timeConfig s.base "save".toList : Nat) :=
  C257_total hs time_fan ex_slashes ex_unlimited ex_instances h ho hres hl hm

/-! ### There is a place for every sample (C258) -/

/-- The log of a list has a place for each instance if one of its actions is an RPC, and none otherwise. -/
theorem C258_rows {e : Env} {w : Test} {service l : Nat} {sv : ServiceSpec} {al : ActionList} (hs : SoundTest e w)
    (hv : w.cfg.services[service]? = some sv) (hl : w.cfg.actionLists[l]? = some al) :
    ((∃ n ∈ al.actionNames, ∃ a ∈ w.cfg.actions, a.name = n ∧ ∃ q, a.kind = .rpc q) →
      logRows w.cfg (w.tables service) l = w.cfg.services.map fun s => (s.count.getD 0).toNat) ∧
    ((¬ ∃ n ∈ al.actionNames, ∃ a ∈ w.cfg.actions, a.name = n ∧ ∃ q, a.kind = .rpc q) →
      logRows w.cfg (w.tables service) l = []) := by
  have ht := hs.tables service sv hv
  obtain ⟨entry, g1, g2, g3, g4⟩ := C28_accepted _ _ _ _ ht l _ hl
  have key : entry.hasRpcs = true ↔ ∃ n ∈ al.actionNames, ∃ a ∈ w.cfg.actions, a.name = n ∧ ∃ q, a.kind = .rpc q := by
    rw [C258_lists _ _ _ _ ht l entry g1]
    constructor
    · rintro ⟨x, hx, q, hk⟩
      obtain ⟨j, hj⟩ := List.getElem?_of_mem hx
      have hlt : j < al.actionNames.length := by
        have := (List.getElem?_eq_some_iff.1 hj).1
        omega
      have hn := List.getElem?_eq_getElem hlt
      obtain ⟨x', k1, k2, k3, -⟩ := g4 j _ hn
      rw [hj] at k1
      cases k1
      exact ⟨_, List.mem_of_getElem? hn, _, k2, k3, q, hk⟩
    · rintro ⟨n, hn, a, ha, han, q, hk⟩
      obtain ⟨j, hj⟩ := List.getElem?_of_mem hn
      obtain ⟨x, k1, k2, k3, -⟩ := g4 j n hj
      refine ⟨x, List.mem_of_getElem? k1, q, ?_⟩
      have h1 := find_named hs.distinct.actions ha han
      rw [find_named hs.distinct.actions k2 k3] at h1
      rw [Option.some.inj h1, hk]
  have hrow : logRows w.cfg (w.tables service) l =
      if entry.hasRpcs then w.cfg.services.map fun s => s.getCount.toNat else [] := by
    unfold logRows
    rw [g1]
  constructor
  · intro h
    rw [hrow, if_pos (key.2 h)]
    rfl
  · intro h
    rw [hrow, if_neg fun h' => h (key.1 h')]

/-- Whatever RPC a test makes, the log of the list that makes it has a place for its target. -/
theorem C258_place {e : Env} {w : Test} {fan : Str → Nat} {ops : List Traffic.TOp} {s : Traffic.TState}
    {c : Traffic.Call} (hs : SoundTest e w) (hf : FanOuts w.cfg fan) (h : TRuns w ops s) (hc : c ∈ s.base.calls) :
    ∃ (job : Traffic.Job) (service instance_ row : Nat), s.base.jobs[c.job]? = some job ∧
      (places w.cfg)[c.target]? = some (service, instance_) ∧
      (logRows w.cfg (w.tables ((serviceOf w.cfg job.engine).getD 0)) job.list)[service]? = some row ∧
      instance_ < row := by
  have hinv := Traffic.inv_timed (truns_global hs hf h)
  obtain ⟨i, hi⟩ := List.getElem?_of_mem hc
  obtain ⟨job, x, k, y, h1, h2, h3, -, h5, -⟩ := hinv.made i c hi
  obtain ⟨x0, hx0, rfl⟩ := Option.map_eq_some_iff.1 (by
    have := h2
    simpa only [globalConfig, List.getElem?_map] using this)
  obtain ⟨al, e1, e2, e3, -⟩ := entry_at hs hx0
  obtain ⟨-, r, -, hk, -⟩ := rpc_work hs hx0 h3
  obtain ⟨p, sv, hp, hsv⟩ := mayRun_service (hinv.may c.job job h1)
  have hrow := (C258_rows hs hsv e1).1 ⟨_, List.mem_of_getElem? e2, _, e3, rfl, _, hk⟩
  obtain ⟨t, ht⟩ : ∃ t, serviceOf w.cfg c.target = some t := by
    have h5' : ((serverOf (w.tables 0) c.rpc).isSome &&
      decide (serviceOf w.cfg c.target = serverOf (w.tables 0) c.rpc)) = true := h5
    rw [Bool.and_eq_true, decide_eq_true_eq, Option.isSome_iff_exists] at h5'
    obtain ⟨⟨t, ht⟩, h6⟩ := h5'
    exact ⟨t, h6.trans ht⟩
  obtain ⟨n, hn⟩ := serviceOf_some.1 ht
  obtain ⟨ts, m1, m2⟩ := mem_places.1 (List.mem_of_getElem? hn)
  refine ⟨job, t, n, _, h1, hn, ?_, m2⟩
  rw [hp, Option.getD_some, hrow, List.getElem?_map, m1]
  rfl

example {tables : Nat → Tables} (hs : SoundTest sampleEnv ⟨timeConfig, tables, exThreads⟩) :
    logRows timeConfig (tables 0) 2 = [2, 3, 1] ∧ logRows timeConfig (tables 0) 3 = [] := by
  refine ⟨(C258_rows hs rfl rfl).1 ?_, (C258_rows hs rfl rfl).2 ?_⟩
  · exact ⟨"keep".toList, by decide, timeConfig.actions[3], (by decide : _ ∈ timeConfig.actions), rfl, _, rfl⟩
  · rintro ⟨n, hn, -⟩
    cases hn

example {tables : Nat → Tables} (hs : SoundTest sampleEnv ⟨timeConfig, tables, exThreads⟩) {ops : List Traffic.TOp}
    {s : Traffic.TState} {c : Traffic.Call} (h : TRuns ⟨timeConfig, tables, exThreads⟩ ops s)
    (hc : s.base.calls[17]? = some c) : ∃ (job : Traffic.Job) (service instance_ row : Nat),
      s.base.jobs[c.job]? = some job ∧ (places timeConfig)[c.target]? = some (service, instance_) ∧
      (logRows timeConfig (tables ((serviceOf timeConfig job.engine).getD 0)) job.list)[service]? = some row ∧
      instance_ < row := C258_place hs time_fan h (List.mem_of_getElem? hc)

example {tables : Nat → Tables} (hs : SoundTest sampleEnv ⟨exConfig, tables, exThreads⟩) {ops : List Traffic.Op}
    {s : Traffic.State} {c : Traffic.Call} (h : Runs ⟨exConfig, tables, exThreads⟩ ops s) (hc : c ∈ s.calls) :
    ∃ (job : Traffic.Job) (service instance_ row : Nat), s.jobs[c.job]? = some job ∧
      (places exConfig)[c.target]? = some (service, instance_) ∧
      (logRows exConfig (tables ((serviceOf exConfig job.engine).getD 0)) job.list)[service]? = some row ∧
      instance_ < row := C258_place hs ex_fan (runs_truns h) hc

end Distbench.Whole
