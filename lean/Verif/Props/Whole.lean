import Verif.Lemmas.WholeReport

/-! Properties of whole tests, from the text of the configuration to the traffic of the engines and to the
summary: C245-C247. -/

namespace Distbench.Whole
open Tables Services Spec

/-! ### A concrete test -/

/-- Two clients ask all three servers, some times directly and some times by another list; for each
question a server asks the store three times. -/
def exConfig : Config :=
  { services := [{ name := "client".toList, count := some 2, xSize := some 2 },
                 { name := "server".toList, count := some 3, xSize := some 3 },
                 { name := "store".toList, count := some 1, xSize := some 1 }]
    rpcs := [{ name := "query".toList, client := ["client".toList], server := "server".toList },
             { name := "save".toList, client := ["server".toList], server := "store".toList
               fanoutFilter := "round_robin".toList }]
    actions := [{ name := "ask".toList, kind := .rpc "query".toList
                  iterations := some { maxIterationCount := some 2, maxParallelIterations := 2 } },
                { name := "again".toList, kind := .actionList "sub".toList
                  dependencies := ["ask".toList] },
                { name := "one".toList, kind := .rpc "query".toList },
                { name := "keep".toList, kind := .rpc "save".toList
                  iterations := some { maxIterationCount := some 3 } }]
    actionLists := [{ name := "client".toList, actionNames := ["ask".toList, "again".toList] },
                    { name := "sub".toList, actionNames := ["one".toList] },
                    { name := "query".toList, actionNames := ["keep".toList] },
                    { name := "save".toList }] }

/-- The same, as written by the user. -/
def exText : Config :=
  { exConfig with
    services := [{ name := "client".toList, count := some 2 }, { name := "server".toList, count := some 3 },
                 { name := "store".toList, count := some 1 }] }

def exFan (n : Str) : Nat := if n = "query".toList then 3 else 1

def exPredicted (rpc n : Str) : Nat :=
  if rpc = "save".toList then
    if n = "client".toList then 27 else if n = "sub".toList then 9 else if n = "query".toList then 3 else 0
  else if n = "client".toList then 9 else if n = "sub".toList then 3 else 0

def exLevel (n : Str) : Nat :=
  if n = "client".toList then 3 else if n = "sub".toList then 2 else if n = "query".toList then 1 else 0

def exLayer (n : Str) : Nat := if n = "client".toList then 2 else if n = "server".toList then 1 else 0

/-- The first server has two threads and the store one. -/
def exThreads (e : Nat) : Option Nat := if e = 2 then some 2 else if e = 5 then some 1 else none

theorem ex_distinct : DistinctNames exConfig := ⟨by decide, by decide, by decide, by decide, by decide⟩

theorem ex_valid : validateTrafficConfig sampleEnv exConfig = .ok () := rfl

theorem ex_canonical : canonicalDescription exText = .ok exConfig := rfl

theorem ex_plain : PlainTest exConfig := by
  refine ⟨by decide, by decide, ?_, ?_, ?_, by decide⟩
  · intro a ha
    simp only [exConfig, List.mem_cons, List.not_mem_nil, or_false] at ha
    rcases ha with rfl | rfl | rfl | rfl <;> exact ⟨fun n h => (by cases h), fun h => (by cases h)⟩
  · intro a ha it hi
    simp only [exConfig, List.mem_cons, List.not_mem_nil, or_false] at ha
    rcases ha with rfl | rfl | rfl | rfl <;> cases hi
    · exact ⟨rfl, ⟨2, rfl, by decide, by decide⟩, by decide⟩
    · exact ⟨rfl, ⟨3, rfl, by decide, by decide⟩, by decide⟩
  · intro a ha it n hi hk
    simp only [exConfig, List.mem_cons, List.not_mem_nil, or_false] at ha
    rcases ha with rfl | rfl | rfl | rfl <;> cases hk

theorem ex_fan : FanOuts exConfig exFan := by
  intro r hr
  simp only [exConfig, List.mem_cons, List.not_mem_nil, or_false] at hr
  rcases hr with rfl | rfl
  · exact ⟨{ name := "server".toList, count := some 3, xSize := some 3 }, by decide, rfl, by decide,
      .inl ⟨by decide, .inl ⟨by decide, by decide⟩⟩⟩
  · exact ⟨{ name := "store".toList, count := some 1, xSize := some 1 }, by decide, rfl, by decide,
      .inr ⟨by decide, .inl (by decide), by decide⟩⟩

theorem ex_predicts : ∀ r ∈ exConfig.rpcs, PredictsNames exConfig exFan r.name (exPredicted r.name) := by
  intro r hr
  simp only [exConfig, List.mem_cons, List.not_mem_nil, or_false] at hr
  rcases hr with rfl | rfl <;> intro l hl <;>
    simp only [exConfig, List.mem_cons, List.not_mem_nil, or_false] at hl <;>
    rcases hl with rfl | rfl | rfl | rfl <;> decide +kernel

theorem ex_query : exConfig.rpcs[0] ∈ exConfig.rpcs := by decide

theorem ex_save : exConfig.rpcs[1] ∈ exConfig.rpcs := by decide

theorem ex_queries : predictedTotal exConfig (exPredicted exConfig.rpcs[0].name) = 18 := by decide +kernel

theorem ex_saves : predictedTotal exConfig (exPredicted exConfig.rpcs[1].name) = 54 := by decide +kernel

theorem ex_fields : ∀ s ∈ exText.services, FieldsFit s := by
  intro s hs
  simp only [exText, List.mem_cons, List.not_mem_nil, or_false] at hs
  rcases hs with rfl | rfl | rfl <;> (unfold FieldsFit; decide)

theorem ex_levels : NameLevels exConfig exLevel := by
  rintro l l' ⟨al, hal, rfl, n, hn, a, ha, rfl, hk⟩
  simp only [exConfig, List.mem_cons, List.not_mem_nil, or_false] at hal ha
  rcases hal with rfl | rfl | rfl | rfl <;> rcases ha with rfl | rfl | rfl | rfl <;>
    first
    | exact absurd hn (by decide)
    | (rcases hk with hk | hk <;> cases hk <;> decide)

theorem ex_may {s l : Str} (h : MayRunName exConfig s l) : (s = l ∧ s ∈ exConfig.services.map (·.name)) ∨
    (s = "server".toList ∧ l = "query".toList) ∨ (s = "store".toList ∧ l = "save".toList) ∨
    (s = "client".toList ∧ l = "sub".toList) := by
  induction h with
  | own hs => exact .inl ⟨rfl, List.mem_map_of_mem hs⟩
  | serves hr =>
    simp only [exConfig, List.mem_cons, List.not_mem_nil, or_false] at hr
    rcases hr with rfl | rfl <;> simp
  | @nested s l al a hmay hal ha hn hk ih =>
    simp only [exConfig, List.mem_cons, List.not_mem_nil, or_false] at hal ha
    rcases hal with rfl | rfl | rfl | rfl <;> rcases ha with rfl | rfl | rfl | rfl <;>
      first
      | exact absurd hn (by decide)
      | (cases hk <;> done)
      | skip
    cases hk
    rcases ih with ⟨rfl, -⟩ | ⟨-, h⟩ | ⟨-, h⟩ | ⟨-, h⟩
    · exact .inr (.inr (.inr ⟨rfl, rfl⟩))
    · exact absurd h (by decide)
    · exact absurd h (by decide)
    · exact absurd h (by decide)

theorem ex_clients : ClientsDeclared exConfig := by
  intro s al a r hm hal ha hn hr hk
  have hm := ex_may hm
  simp only [exConfig, List.mem_cons, List.not_mem_nil, or_false] at hal ha hr
  rcases hal with rfl | rfl | rfl | rfl <;> rcases ha with rfl | rfl | rfl | rfl <;>
    first
    | exact absurd hn (by decide)
    | skip
  all_goals
    rcases hr with rfl | rfl <;>
    first
    | (injection hk with hk; exact absurd hk (by decide))
    | skip
  all_goals
    rcases hm with ⟨rfl, h⟩ | ⟨rfl, h⟩ | ⟨rfl, h⟩ | ⟨rfl, h⟩ <;>
    first
    | exact absurd h (by decide)
    | decide
    | cases hk

theorem ex_layered (tables : Nat → Tables) : LayeredServices ⟨exConfig, tables, exThreads⟩ exLayer := by
  intro r hr c hc
  simp only [exConfig, List.mem_cons, List.not_mem_nil, or_false] at hr
  rcases hr with rfl | rfl <;> simp only [List.mem_cons, List.not_mem_nil, or_false] at hc <;> subst hc
  · exact ⟨by decide, fun _ _ _ _ _ _ _ => by decide⟩
  · exact ⟨by decide, fun _ _ _ _ _ _ _ => by decide⟩

theorem ex_threads (e : Nat) : exThreads e ≠ some 0 := by
  unfold exThreads
  split
  · simp
  · split <;> simp

/-! ### The number of RPCs (C245) -/

/-- The engines of a configuration that is accepted, whose things of one kind have different names, build
tables as the following theorems ask for. -/
theorem C245_accepted {e : Env} {raw cfg : Config} (hf : ∀ s ∈ raw.services, FieldsFit s)
    (hc : canonicalDescription raw = .ok cfg) (hv : validateTrafficConfig e cfg = .ok ())
    (hd : DistinctNames cfg) (hne : cfg.services ≠ []) (threads : Nat → Option Nat) :
    ∃ tables, SoundTest e ⟨cfg, tables, threads⟩ := by
  obtain ⟨⟨services, rfl, hlen, h2⟩, -⟩ := C76_canonical_description raw cfg hc
  have hex : ∀ s ∈ services, ∃ t, initTables e { raw with services := services } s.name = .ok t :=
    fun s hs => (C75_validated_everywhere e _ hd.services hv s hs).1
  cases hs0 : services with
  | nil => exact absurd hs0 hne
  | cons s0 rest =>
    rw [← hs0]
    obtain ⟨t0, h0⟩ := hex s0 (by rw [hs0]; exact List.mem_cons_self)
    have hall : ∀ i : Nat, ∃ t, ∀ s, services[i]? = some s →
        initTables e { raw with services := services } s.name = .ok t := by
      intro i
      cases hi : services[i]? with
      | none => exact ⟨t0, fun s h => by cases h⟩
      | some s =>
        obtain ⟨t, ht⟩ := hex s (List.mem_of_getElem? hi)
        exact ⟨t, fun s' h => by cases h; exact ht⟩
    refine ⟨fun i => (hall i).choose, hne, ?_, fun i s h => (hall i).choose_spec s h, hd⟩
    intro s hs
    obtain ⟨i, hi⟩ := List.getElem?_of_mem hs
    have hlt : i < raw.services.length := by
      have := (List.getElem?_eq_some_iff.1 hi).1
      have hlen : services.length = raw.services.length := hlen
      have : i < services.length := this
      omega
    have hr := List.getElem?_eq_getElem hlt
    obtain ⟨c, k1, k2⟩ := h2 i _ hr
    have hi : services[i]? = some s := hi
    rw [hi] at k1
    cases k1
    exact ⟨_, hf _ (List.mem_of_getElem? hr), k2⟩

theorem ex_sound : ∃ tables, SoundTest sampleEnv ⟨exConfig, tables, exThreads⟩ :=
  C245_accepted ex_fields ex_canonical ex_valid ex_distinct (by simp [exConfig]) exThreads

/-- When a test without predicates, replay traces and time limits is over, it has made exactly the number
of RPCs with each name that its configuration adds up to. -/
theorem C245_rpcs {e : Env} {w : Test} {fan predicted : Str → Nat} {r : RpcSpec} {ops : List Traffic.Op}
    {s : Traffic.State} (hs : SoundTest e w) (hp : PlainTest w.cfg) (hf : FanOuts w.cfg fan)
    (hr : r ∈ w.cfg.rpcs) (hn : PredictsNames w.cfg fan r.name predicted) (h : Runs w ops s)
    (ho : TrafficOver s) : madeNamed w.cfg s r.name = predictedTotal w.cfg predicted := by
  obtain ⟨q, hq⟩ := List.getElem?_of_mem hr
  rw [made_named hs.distinct hq, ← roots_sum]
  exact Traffic.C226_rpcs (predicts_global hs hp (named_byPlace _ _) hn hq) (unconditional hs hp.predicates _)
    (runs_global hs hf h) ho

/-- At no time has it made more. -/
theorem C245_never_more {e : Env} {w : Test} {fan predicted : Str → Nat} {r : RpcSpec} {ops : List Traffic.Op}
    {s : Traffic.State} (hs : SoundTest e w) (hp : PlainTest w.cfg) (hf : FanOuts w.cfg fan)
    (hr : r ∈ w.cfg.rpcs) (hn : PredictsNames w.cfg fan r.name predicted) (h : Runs w ops s) :
    madeNamed w.cfg s r.name ≤ predictedTotal w.cfg predicted := by
  obtain ⟨q, hq⟩ := List.getElem?_of_mem hr
  rw [made_named hs.distinct hq, ← roots_sum]
  exact Traffic.C226_never_more (predicts_global hs hp (named_byPlace _ _) hn hq) (runs_global hs hf h)

/-- There is such a prediction whenever no list leads to itself. -/
theorem C245_predicted {e : Env} {w : Test} {level : Str → Nat} (hs : SoundTest e w) (hp : PlainTest w.cfg)
    (hl : NameLevels w.cfg level) (fan : Str → Nat) {r : RpcSpec} (hr : r ∈ w.cfg.rpcs) :
    ∃ predicted, PredictsNames w.cfg fan r.name predicted := by
  obtain ⟨q, hq⟩ := List.getElem?_of_mem hr
  obtain ⟨pn, h⟩ := Traffic.C226_predicted (levels_global hs hl (fanAt w.cfg fan)) q
  refine ⟨byName w.cfg pn, predicts_names hs hp (named_byName hs.distinct fun l hl => ?_) h hq⟩
  rw [h l]
  show (((actionsOf (w.tables 0) l).map (toAction (fanAt w.cfg fan))).map _).sum = 0
  rw [actionsOf_none hs hl]
  rfl

example {tables : Nat → Tables} (hs : SoundTest sampleEnv ⟨exConfig, tables, exThreads⟩) :
    ∃ predicted, PredictsNames exConfig exFan "save".toList predicted :=
  C245_predicted hs ex_plain ex_levels exFan ex_save

/-! ### A test ends (C246) -/

/-- If no list leads to itself, there is a bound on the number of steps of a test, whatever the schedule
and whatever the engines draw. -/
theorem C246_ends {e : Env} {w : Test} {fan level : Str → Nat} (hs : SoundTest e w) (hf : FanOuts w.cfg fan)
    (hl : NameLevels w.cfg level) : ∃ bound, ∀ ops s, Runs w ops s → ops.length ≤ bound := by
  obtain ⟨b, hb⟩ := Traffic.C227_ends (levels_global hs hl (fanAt w.cfg fan))
  exact ⟨b, fun ops s h => hb ops s (runs_global hs hf h)⟩

/-- When nothing more can happen, all lists are over and all RPCs are back, provided that each service is
a client of the RPCs it makes and engines with limited threads are only called from higher services. -/
theorem C246_stuck {e : Env} {w : Test} {fan layer : Str → Nat} {ops : List Traffic.Op} {s : Traffic.State}
    (hs : SoundTest e w) (hp : PlainTest w.cfg) (hf : FanOuts w.cfg fan) (hc : ClientsDeclared w.cfg)
    (hy : LayeredServices w layer) (hz : ∀ e, w.threads e ≠ some 0) (h : Runs w ops s)
    (hstuck : StuckTest w s) : TrafficOver s := by
  have hg := runs_global hs hf h
  refine Traffic.C228_stuck_partial (sensible_global hs (fun _ => parallel_pos hp _) hf) (layered_global hs hc hy _) hz hg ?_
  intro op
  cases hst : Traffic.step (globalConfig w (fanAt w.cfg fan)) s op with
  | none => rfl
  | some s' =>
    obtain ⟨op', s'', hstep, -⟩ := step_engine hs hf hc (Traffic.inv_run hg) hst
    exact absurd hstep (hstuck op' s'')

/-- If besides no list leads to itself, every run can be continued until all is over. -/
theorem C246_finish {e : Env} {w : Test} {fan layer level : Str → Nat} {ops : List Traffic.Op}
    {s : Traffic.State} (hs : SoundTest e w) (hp : PlainTest w.cfg) (hf : FanOuts w.cfg fan)
    (hl : NameLevels w.cfg level) (hc : ClientsDeclared w.cfg) (hy : LayeredServices w layer)
    (hz : ∀ e, w.threads e ≠ some 0) (h : Runs w ops s) :
    ∃ ops' s', Runs w (ops ++ ops') s' ∧ TrafficOver s' := by
  obtain ⟨bound, hb⟩ := C246_ends hs hf hl
  have : ∀ n ops s, Runs w ops s → bound - ops.length = n →
      ∃ ops' s', Runs w (ops ++ ops') s' ∧ TrafficOver s' := by
    intro n
    induction n using Nat.strongRecOn with
    | ind n ih =>
      intro ops s h hn
      by_cases hst : StuckTest w s
      · exact ⟨[], s, by rw [List.append_nil]; exact h, C246_stuck hs hp hf hc hy hz h hst⟩
      · have : ∃ op s', Step w s op s' := by
          apply Classical.byContradiction
          intro hno
          exact hst fun op s' hstep => hno ⟨op, s', hstep⟩
        obtain ⟨op, s', hstep⟩ := this
        have hr := Runs.step op h hstep
        have hlen := hb _ _ hr
        rw [List.length_append, List.length_singleton] at hlen
        obtain ⟨ops', s'', k1, k2⟩ := ih (bound - (ops ++ [op]).length)
          (by rw [List.length_append, List.length_singleton]; omega) _ _ hr rfl
        exact ⟨op :: ops', s'', by rw [List.append_cons]; exact k1, k2⟩
  exact this _ ops s h rfl

/-- The example ends, with 18 queries and 54 saves. -/
theorem ex_ends : ∃ tables ops s, SoundTest sampleEnv ⟨exConfig, tables, exThreads⟩ ∧
    Runs ⟨exConfig, tables, exThreads⟩ ops s ∧ TrafficOver s ∧
    madeNamed exConfig s "query".toList = 18 ∧ madeNamed exConfig s "save".toList = 54 := by
  obtain ⟨tables, hs⟩ := ex_sound
  obtain ⟨ops, s, h, ho⟩ := C246_finish hs ex_plain ex_fan ex_levels ex_clients (ex_layered tables) ex_threads .start
  refine ⟨tables, _, s, hs, h, ho, ?_, ?_⟩
  · exact (C245_rpcs hs ex_plain ex_fan ex_query (ex_predicts _ ex_query) h ho).trans ex_queries
  · exact (C245_rpcs hs ex_plain ex_fan ex_save (ex_predicts _ ex_save) h ho).trans ex_saves

example {tables : Nat → Tables} (hs : SoundTest sampleEnv ⟨exConfig, tables, exThreads⟩) {ops : List Traffic.Op}
    {s : Traffic.State} (h : Runs ⟨exConfig, tables, exThreads⟩ ops s) :
    madeNamed exConfig s "save".toList ≤ 54 := by
  rw [← ex_saves]
  exact C245_never_more hs ex_plain ex_fan ex_save (ex_predicts _ ex_save) h

/-- A test in which a service that has instances makes an RPC in its own list without being a client of
this RPC is never over, although the engines accept its configuration. -/
theorem C246_undeclared {e : Env} {w : Test} {fan : Str → Nat} {sv : ServiceSpec} {al : ActionList} {a : Action}
    {r : RpcSpec} {ops : List Traffic.Op} {s : Traffic.State} (hs : SoundTest e w) (hp : PlainTest w.cfg)
    (hf : FanOuts w.cfg fan) (hsv : sv ∈ w.cfg.services) (hcount : 1 ≤ sv.count.getD 0)
    (hal : al ∈ w.cfg.actionLists) (hname : al.name = sv.name) (ha : a ∈ w.cfg.actions)
    (hmem : a.name ∈ al.actionNames) (hr : r ∈ w.cfg.rpcs) (hk : a.kind = .rpc r.name)
    (hc : sv.name ∉ r.client) (h : Runs w ops s) : ¬ TrafficOver s := by
  obtain ⟨i, hi⟩ := List.getElem?_of_mem hsv
  obtain ⟨l, hl⟩ := List.getElem?_of_mem hal
  obtain ⟨b, hb⟩ := List.getElem?_of_mem hmem
  have hlen := actionsOf_length hs hl
  have hlt : b < (actionsOf (w.tables 0) l).length := by
    have := (List.getElem?_eq_some_iff.1 hb).1
    omega
  have hx := List.getElem?_eq_getElem hlt
  obtain ⟨al', a1, a2, a3, -, a5, -⟩ := entry_at hs hx
  rw [hl] at a1
  cases a1
  rw [hb] at a2
  injection a2 with a2
  have hproto : (actionsOf (w.tables 0) l)[b].proto = a := by
    have h1 := find_named hs.distinct.actions a3 rfl
    rw [← a2, find_named hs.distinct.actions ha rfl] at h1
    injection h1 with h1
    exact h1.symm
  generalize (actionsOf (w.tables 0) l)[b] = x at *
  subst hproto
  obtain ⟨q, i', r', sv', g1, g2, g3, g4, -⟩ := a5 _ hk
  have hrr : r' = r := by
    obtain ⟨q', hq'⟩ := List.getElem?_of_mem hr
    have := names_inj hs.distinct.rpcs g3 hq' g4
    subst this
    rw [g3] at hq'
    cases hq'
    rfl
  subst hrr
  obtain ⟨eng, heng⟩ := engineAt_exists (n := 0) hi (by unfold ServiceSpec.getCount; omega)
  have hserv := serviceOf_some.2 ⟨0, engineAt_place heng⟩
  have hroot : rootList w.cfg i = some l := by
    unfold rootList
    rw [hi]
    dsimp only
    rw [← hname]
    exact findIdx_named hs.distinct hl
  obtain ⟨j, hj⟩ := List.getElem?_of_mem (roots_mem hserv hroot)
  have held : ∀ {ops s}, Runs w ops s → Held j b eng l s := by
    intro ops s h
    induction h with
    | start =>
      refine ⟨_, by show ((roots w.cfg).map _)[j]? = _; rw [List.getElem?_map, hj]; rfl, rfl, rfl, .inl ?_⟩
      show ((engineConfig w _ eng).actions l |>.map _)[b]? = _
      rw [engine_actions hs (hasService hserv), List.getElem?_map, List.getElem?_map, hx]
      rfl
    | @step ops s s' op hruns hstep ih =>
      have hg := runs_global hs hf hruns
      have hstep' := step_global hs hf (Traffic.inv_run hg) hstep
      refine held_step ih hstep' ?_ ?_ ?_
      · intro he
        have hsk := (Traffic.no_skip (unconditional hs hp.predicates _) (runs_global hs hf (Runs.step op hruns hstep))).1 j b
        exact hsk (by rw [he]; simp)
      · rintro t rfl
        obtain ⟨job, k1, k2, k3, -⟩ := ih
        have hpick := hstep.1 job x k1 (by
          rw [k2, k3, hserv, Option.getD_some, same_actions hs hi]
          exact hx) ⟨_, _, work_rpc hs hx hk _⟩
        rw [k2] at hpick
        exact hc (picks_client hs g1 g3 hserv hi hpick)
      · intro y hy
        have hy : ((actionsOf (w.tables 0) l).map (toAction (fanAt w.cfg fan)))[b]? = some y := hy
        rw [List.getElem?_map, hx] at hy
        cases hy
        show 1 ≤ (Iterations.params x.proto 0 false).limit.toNat
        rw [limit_count hp a3]
        unfold iterationCount
        cases hit : x.proto.iterations with
        | none => exact Nat.le_refl 1
        | some it =>
          obtain ⟨-, ⟨n, n1, n2, -⟩, -⟩ := hp.counted _ a3 it hit
          simp only [n1, Option.getD_some]
          omega
  exact held_not_over (Traffic.inv_run (runs_global hs hf h)) (held h)

/-- The clients are not clients of "query". -/
def exBad : Config :=
  { exConfig with
    rpcs := [{ name := "query".toList, client := ["server".toList], server := "server".toList },
             { name := "save".toList, client := ["server".toList], server := "store".toList }] }

theorem ex_bad_fan : FanOuts exBad (fun n => if n = "query".toList then 2 else 1) := by
  intro r hr
  simp only [exBad, List.mem_cons, List.not_mem_nil, or_false] at hr
  rcases hr with rfl | rfl
  · exact ⟨{ name := "server".toList, count := some 3, xSize := some 3 }, by decide, rfl, by decide,
      .inl ⟨by decide, .inr ⟨by decide, by decide⟩⟩⟩
  · exact ⟨{ name := "store".toList, count := some 1, xSize := some 1 }, by decide, rfl, by decide,
      .inl ⟨by decide, .inl ⟨by decide, by decide⟩⟩⟩

theorem ex_bad_query : ∃ r ∈ exBad.rpcs, r.name = "query".toList ∧ "client".toList ∉ r.client := by decide

theorem ex_bad_plain : PlainTest exBad :=
  ⟨ex_plain.predicates, ex_plain.cancel, ex_plain.kinds, ex_plain.counted, ex_plain.activities, by decide⟩

example : ∃ tables, SoundTest sampleEnv ⟨exBad, tables, exThreads⟩ ∧
    ∀ ops s, Runs ⟨exBad, tables, exThreads⟩ ops s → ¬ TrafficOver s := by
  obtain ⟨tables, hs⟩ := C245_accepted (e := sampleEnv) (raw := { exBad with services := exText.services }) ex_fields
    rfl rfl ⟨by decide, by decide, by decide, by decide, by decide⟩ (by simp [exBad, exConfig]) exThreads
  obtain ⟨r, hr, hn, hc⟩ := ex_bad_query
  exact ⟨tables, hs, fun ops s h => C246_undeclared hs ex_bad_plain ex_bad_fan (sv := exConfig.services[0])
    (al := exConfig.actionLists[0]) (a := exConfig.actions[0]) (List.getElem_mem _) (by decide)
    (List.getElem_mem _) rfl (List.getElem_mem _) (by decide) hr (by rw [hn]; rfl) hc h⟩

/-! ### The summary (C247) -/

/-- The number of samples that the summary gives is the number of RPCs that the configuration adds up
to. -/
theorem C247_total {e : Env} {w : Test} {fan : Str → Nat} {predicted : Str → Str → Nat} {ops : List Traffic.Op}
    {s : Traffic.State} {engines : List Nat} {failed warmup : Nat → Bool} {res : Summary.Result}
    {lines : List Summary.Line} {n : Int} (hs : SoundTest e w) (hp : PlainTest w.cfg) (hf : FanOuts w.cfg fan)
    (hn : ∀ r ∈ w.cfg.rpcs, PredictsNames w.cfg fan r.name (predicted r.name)) (hnames : PlainNames w.cfg)
    (hu : UnlimitedSamples w.cfg) (hall : AllInstances w.cfg engines) (h : Runs w ops s) (ho : TrafficOver s)
    (hres : Report.Collected (setupOf w failed warmup) (w.cfg.rpcs.map (·.name)) engines s res)
    (hl : Summary.summarize res = .ok lines) (hm : .totalSamples n ∈ lines) :
    n = ((w.cfg.rpcs.map fun r => predictedTotal w.cfg (predicted r.name)).sum : Nat) := by
  let pn : Nat → Nat → Nat := fun q =>
    byPlace w.cfg (((w.cfg.rpcs[q]?).map fun r => predicted r.name).getD fun _ => 0)
  have hpn : ∀ (q : Nat) r, w.cfg.rpcs[q]? = some r → pn q = byPlace w.cfg (predicted r.name) := by
    intro q r hq
    show byPlace w.cfg _ = _
    rw [hq]
    rfl
  have := Report.C237_predicted (predicted := pn) (all_kinds hs (fanAt w.cfg fan)) (by
    intro q hq
    rw [List.mem_range] at hq
    have hq := List.getElem?_eq_getElem hq
    rw [hpn q _ hq]
    exact predicts_global hs hp (named_byPlace _ _) (hn _ (List.mem_of_getElem? hq)) hq)
    (unconditional hs hp.predicates _) (deployed hs hnames hall failed warmup _) (runs_global hs hf h) ho
    (no_limit hu failed warmup s) hres hl hm
  rw [this]
  congr 2
  apply List.ext_getElem?
  intro q
  rw [List.getElem?_map, List.getElem?_map]
  cases hq : w.cfg.rpcs[q]? with
  | none =>
    rw [List.getElem?_eq_none (by rw [List.length_range]; exact List.getElem?_eq_none_iff.1 hq)]
    rfl
  | some r =>
    rw [List.getElem?_range (List.getElem?_eq_some_iff.1 hq).1, Option.map_some, Option.map_some, hpn q r hq]
    exact congrArg some (roots_sum _)

/-- If nothing fails and there is no warmup, the number in the latency line of an RPC is the number that
the configuration adds up to for this RPC. -/
theorem C247_line {e : Env} {w : Test} {fan predicted : Str → Nat} {r : RpcSpec} {ops : List Traffic.Op}
    {s : Traffic.State} {engines : List Nat} {res : Summary.Result} {lines : List Summary.Line} {n : Nat}
    {stats : Option Summary.Stats} (hs : SoundTest e w) (hp : PlainTest w.cfg) (hf : FanOuts w.cfg fan)
    (hr : r ∈ w.cfg.rpcs) (hn : PredictsNames w.cfg fan r.name predicted) (hnames : PlainNames w.cfg)
    (hu : UnlimitedSamples w.cfg) (hall : AllInstances w.cfg engines) (h : Runs w ops s) (ho : TrafficOver s)
    (hres : Report.Collected (setupOf w (fun _ => false) fun _ => false) (w.cfg.rpcs.map (·.name)) engines s res)
    (hl : Summary.summarize res = .ok lines) (hm : .latency r.name n stats ∈ lines) :
    n = predictedTotal w.cfg predicted := by
  obtain ⟨q, hq⟩ := List.getElem?_of_mem hr
  have hname : ∀ (k : Nat) r', w.cfg.rpcs[k]? = some r' → (w.cfg.rpcs.map (·.name)).getD k [] = r'.name := by
    intro k r' hk
    rw [List.getD_eq_getElem?_getD, List.getElem?_map, hk]
    rfl
  rw [← roots_sum]
  refine Report.C238_predicted (all_kinds hs (fanAt w.cfg fan)) (predicts_global hs hp (named_byPlace _ _) hn hq)
    (unconditional hs hp.predicates _) (deployed hs hnames hall _ _ _) (runs_global hs hf h) ho (no_limit hu _ _ s) hres hl
    (fun _ => rfl) (fun _ => rfl) ?_ (q := q) (by rw [hname q r hq]; exact hm)
  intro k hk hkn
  rw [List.mem_range] at hk
  have hk := List.getElem?_eq_getElem hk
  rw [hname k _ hk, hname q r hq] at hkn
  exact names_inj hs.distinct.rpcs hk hq hkn

theorem ex_slashes : PlainNames exConfig := by unfold PlainNames; decide

theorem ex_unlimited : UnlimitedSamples exConfig := by unfold UnlimitedSamples; decide

theorem ex_instances : AllInstances exConfig [5, 0, 2, 3, 4, 1] := by unfold AllInstances; decide

theorem ex_total : (((exConfig.rpcs.map fun r => predictedTotal exConfig (exPredicted r.name)).sum : Nat) : Int) = 72 := by
  decide +kernel

example {tables : Nat → Tables} (hs : SoundTest sampleEnv ⟨exConfig, tables, exThreads⟩) {ops : List Traffic.Op}
    {s : Traffic.State} {res : Summary.Result} {lines : List Summary.Line} {n : Int}
    (h : Runs ⟨exConfig, tables, exThreads⟩ ops s) (ho : TrafficOver s)
    (hres : Report.Collected (setupOf ⟨exConfig, tables, exThreads⟩ (fun _ => false) fun _ => false)
      ["query".toList, "save".toList] [5, 0, 2, 3, 4, 1] s res)
    (hl : Summary.summarize res = .ok lines) (hm : .totalSamples n ∈ lines) : n = 72 :=
  (C247_total hs ex_plain ex_fan ex_predicts ex_slashes ex_unlimited ex_instances h ho hres hl hm).trans ex_total

example {tables : Nat → Tables} (hs : SoundTest sampleEnv ⟨exConfig, tables, exThreads⟩) {ops : List Traffic.Op}
    {s : Traffic.State} {res : Summary.Result} {lines : List Summary.Line} {n : Nat} {stats : Option Summary.Stats}
    (h : Runs ⟨exConfig, tables, exThreads⟩ ops s) (ho : TrafficOver s)
    (hres : Report.Collected (setupOf ⟨exConfig, tables, exThreads⟩ (fun _ => false) fun _ => false)
      ["query".toList, "save".toList] [5, 0, 2, 3, 4, 1] s res)
    (hl : Summary.summarize res = .ok lines) (hm : .latency "save".toList n stats ∈ lines) : n = 54 :=
  (C247_line hs ex_plain ex_fan ex_save (ex_predicts _ ex_save) ex_slashes ex_unlimited ex_instances h ho hres hl
    hm).trans ex_saves

end Distbench.Whole
