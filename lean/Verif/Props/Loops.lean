import Verif.Lemmas.LoopsProgress
import Verif.Props.WholeTime

/-! Properties of whole tests with the loops of the engines in full: C259-C263. -/

namespace Distbench.Loops
open Tables Services Whole Spec

theorem time_loops : LoopTest timeConfig := loop_of_time time_plain (by
  intro a ha n h
  simp only [timeConfig, List.mem_cons, List.not_mem_nil, or_false] at ha
  rcases ha with rfl | rfl | rfl | rfl <;> cases h)

theorem ex_loops : ∀ a ∈ exConfig.actions, ∀ n, a.kind ≠ .activity n := by
  intro a ha n h
  simp only [exConfig, List.mem_cons, List.not_mem_nil, or_false] at ha
  rcases ha with rfl | rfl | rfl | rfl <;> cases h

/-- The example can begin; then the clients run their lists. -/
example : ∃ tables s, SoundTest sampleEnv ⟨timeConfig, tables, exThreads⟩ ∧
    Reach ⟨timeConfig, tables, exThreads⟩ s ∧ s.jobs.length = (roots timeConfig).length := by
  obtain ⟨tables, hs⟩ := time_sound
  obtain ⟨s, h⟩ := start_exists hs
  exact ⟨tables, s, hs, .start h, h.2.1⟩

/-! ### The number of RPCs (C259) -/

/-- When all threads are through, a test has made at least the number of RPCs with each name that its
configuration adds up to if each time limit allows only the iterations that begin in any case. -/
theorem C259_at_least {e : Env} {w : Test} {fan predicted : Str → Nat} {r : RpcSpec} {s : State}
    (hs : SoundTest e w) (hp : TimeTest w.cfg) (ha : ∀ a ∈ w.cfg.actions, ∀ n, a.kind ≠ .activity n)
    (hf : FanOuts w.cfg fan) (hr : r ∈ w.cfg.rpcs)
    (hn : PredictsBy w.cfg fewestIterations fan r.name predicted) (h : Reach w s) (ho : LoopsOver s) :
    predictedTotal w.cfg predicted ≤ rpcsNamed w.cfg s r.name := by
  obtain ⟨ops, t, hsim⟩ := sim hs (loop_of_time hp ha) hf h
  have ho := over_abs ho
  rw [← named_abs, ← hsim.base]
  rw [← hsim.base] at ho
  exact C255_at_least hs hp hf hr hn hsim.runs ho

/-- At no time has it made more than the configuration adds up to if each time limit allows as many iterations
as there was time for. -/
theorem C259_at_most {e : Env} {w : Test} {n : Nat} {fan predicted : Str → Nat} {r : RpcSpec} {s : State}
    (hs : SoundTest e w) (hp : TimeTest w.cfg) (ha : ∀ a ∈ w.cfg.actions, ∀ n, a.kind ≠ .activity n)
    (hf : FanOuts w.cfg fan) (hr : r ∈ w.cfg.rpcs)
    (hn : PredictsBy w.cfg (mostIterations n) fan r.name predicted) (h : Reach w s) (ht : LoopTime w.cfg n s) :
    rpcsNamed w.cfg s r.name ≤ predictedTotal w.cfg predicted := by
  obtain ⟨ops, t, hsim⟩ := sim hs (loop_of_time hp ha) hf h
  rw [← named_abs, ← hsim.base]
  exact C255_at_most hs hp hf hr hn hsim.runs (time_abs hsim ht)

/-- Without time limits the number is exactly what the configuration adds up to. -/
theorem C259_exact {e : Env} {w : Test} {fan predicted : Str → Nat} {r : RpcSpec} {s : State}
    (hs : SoundTest e w) (hp : PlainTest w.cfg) (ha : ∀ a ∈ w.cfg.actions, ∀ n, a.kind ≠ .activity n)
    (hf : FanOuts w.cfg fan) (hr : r ∈ w.cfg.rpcs)
    (hn : PredictsNames w.cfg fan r.name predicted) (h : Reach w s) (ho : LoopsOver s) :
    rpcsNamed w.cfg s r.name = predictedTotal w.cfg predicted := by
  refine Nat.le_antisymm ?_ ?_
  · refine C259_at_most (n := 0) hs (time_of_plain hp) ha hf hr
      (predicts_plain hp (fun a ha => (plain_counts hp 0 ha).2.1) hn) h ?_
    intro k _ a act hact hlim
    obtain ⟨al, name, -, -, h3⟩ := hact
    have := List.mem_of_find?_eq_some (show w.cfg.actions.find? _ = some act from h3)
    exact absurd hlim (plain_counts hp 0 this).2.2
  · exact C259_at_least hs (time_of_plain hp) ha hf hr
      (predicts_plain hp (fun a ha => (plain_counts hp 0 ha).1) hn) h ho

example {tables : Nat → Tables} (hs : SoundTest sampleEnv ⟨timeConfig, tables, exThreads⟩) {s : State}
    (h : Reach ⟨timeConfig, tables, exThreads⟩ s) (ho : LoopsOver s) :
    18 ≤ rpcsNamed timeConfig s "save".toList := by
  rw [← time_totals.2.1]
  exact C259_at_least hs time_plain time_loops.activities time_fan ex_save (time_fewest _ ex_save) h ho

example {tables : Nat → Tables} (hs : SoundTest sampleEnv ⟨timeConfig, tables, exThreads⟩) {s : State}
    (h : Reach ⟨timeConfig, tables, exThreads⟩ s) (ht : LoopTime timeConfig 5 s) :
    rpcsNamed timeConfig s "save".toList ≤ 108 := by
  rw [← time_totals.2.2.2]
  exact C259_at_most hs time_plain time_loops.activities time_fan ex_save (time_most _ ex_save) h ht

example {tables : Nat → Tables} (hs : SoundTest sampleEnv ⟨exConfig, tables, exThreads⟩) {s : State}
    (h : Reach ⟨exConfig, tables, exThreads⟩ s) (ho : LoopsOver s) :
    rpcsNamed exConfig s "save".toList = 54 :=
  (C259_exact hs ex_plain ex_loops ex_fan ex_save (ex_predicts _ ex_save) h ho).trans ex_saves

/-! ### Every RPC is handled once (C260) -/

/-- The lists that were run for an RPC: none as long as it has not reached a thread of its server, then
exactly one, which is the list with the name of the RPC, at the engine that it was sent to; and none at all if
that list is empty. -/
theorem C260_once {e : Env} {w : Test} {fan : Str → Nat} {s : State} {c : Nat} {call : Traffic.Call} {r : RpcSpec}
    {al : ActionList} (hs : SoundTest e w) (hp : LoopTest w.cfg) (hf : FanOuts w.cfg fan) (h : Reach w s)
    (hc : s.calls[c]? = some call) (hr : w.cfg.rpcs[call.rpc]? = some r) (hal : al ∈ w.cfg.actionLists)
    (hn : al.name = r.name) :
    (s.jobs.countP fun k => k.parent = .call c) =
        (if al.actionNames = [] ∨ call.stage = .sent ∨ call.stage = .queued then 0 else 1) ∧
      ∀ k ∈ s.jobs, k.parent = .call c → w.cfg.actionLists[k.list]? = some al ∧ k.engine = call.target := by
  obtain ⟨ops, t, hsim⟩ := sim hs hp hf h
  have hI := Traffic.inv_timed (truns_global hs hf hsim.runs)
  rw [hsim.base] at hI
  obtain ⟨h1, h2⟩ := Traffic.handled_once (c := c) hI id (calls_get hc)
  obtain ⟨i, al', g1, g2, g3⟩ := handler_list hs (fanAt w.cfg fan) hr
  have heq : al' = al := by
    obtain ⟨i', hi'⟩ := List.getElem?_of_mem hal
    have := names_inj hs.distinct.lists g1 hi' (by rw [g2, hn])
    subst this
    rw [g1] at hi'
    exact Option.some.inj hi'
  subst heq
  have hpar : ∀ k : Job, (absJob s k).parent = .call c ↔ k.parent = .call c := by
    intro k
    show absParent s k.parent = .call c ↔ _
    cases hk : k.parent with
    | root => simp [absParent]
    | call c' => simp [absParent]
    | action j a n => simp [absParent]
  constructor
  · have : (s.jobs.countP fun k => k.parent = .call c) = (abs s).jobs.countP fun k => k.parent = .call c := by
      show _ = (s.jobs.map _).countP _
      rw [List.countP_map]
      refine List.countP_congr fun k _ => ?_
      simp only [Function.comp, decide_eq_true_eq]
      exact (hpar k).symm
    rw [this, h1]
    have hst : (absCall s call).stage = call.stage := rfl
    have hrpc : (absCall s call).rpc = call.rpc := rfl
    rw [hst, hrpc]
    rcases g3 with ⟨g3, g4⟩ | ⟨g3, g4⟩
    · rw [if_pos (.inl g4), if_pos (.inl g3)]
    · rw [g4]
      simp [g3]
  · intro k hk hkp
    obtain ⟨k1, k2⟩ := h2 (absJob s k) (List.mem_map_of_mem hk) ((hpar k).2 hkp)
    refine ⟨?_, k2⟩
    have k1 : (globalConfig w (fanAt w.cfg fan)).handler call.rpc = some k.list := k1
    rcases g3 with ⟨g3, g4⟩ | ⟨g3, g4⟩
    · rw [g4] at k1
      cases k1
    · rw [g4] at k1
      injection k1 with k1
      rw [← k1]
      exact g1

example {tables : Nat → Tables} (hs : SoundTest sampleEnv ⟨timeConfig, tables, exThreads⟩) {s : State}
    (h : Reach ⟨timeConfig, tables, exThreads⟩ s) {c : Nat} {call : Traffic.Call} (hc : s.calls[c]? = some call)
    (hr : call.rpc = 0) (hst : call.stage = .completed) :
    (s.jobs.countP fun k => k.parent = .call c) = 1 := by
  have := (C260_once (r := exConfig.rpcs[0]) (al := exConfig.actionLists[2]) hs time_loops time_fan h hc
    (by rw [hr]; rfl) (show exConfig.actionLists[2] ∈ exConfig.actionLists by decide) (by decide)).1
  rw [hst] at this
  exact this

/-! ### The latency of an RPC covers all that is done for it (C261) -/

/-- If no action sends the response before its list ends, then by the time an RPC is back at its client all
RPCs made for its sake, directly or through others, are back at theirs. -/
theorem C261_nested {e : Env} {w : Test} {fan : Str → Nat} {s : State} {c c' : Nat} {call call' : Traffic.Call}
    (hs : SoundTest e w) (hp : LoopTest w.cfg) (hf : FanOuts w.cfg fan) (hl : RespondsLast w.cfg) (h : Reach w s)
    (hc : s.calls[c]? = some call) (hd : call.stage = .completed) (hb : RpcBelow s c c')
    (hc' : s.calls[c']? = some call') : call'.stage = .completed := by
  obtain ⟨ops, t, hsim⟩ := sim hs hp hf h
  have hg := truns_global hs hf hsim.runs
  have hI := Traffic.inv_timed hg
  have hL := Traffic.lateInv_timed (no_early hs hl _) hg
  rw [hsim.base] at hI hL
  have hne : (absCall s call).stage ≠ .running := by
    show call.stage ≠ _
    rw [hd]
    simp
  have := (Traffic.below_ended hI hL (calls_get hc) hne).2 c' (run_below.2 c' hb) _ (calls_get hc')
  exact this

example {tables : Nat → Tables} (hs : SoundTest sampleEnv ⟨timeConfig, tables, exThreads⟩) {s : State}
    (h : Reach ⟨timeConfig, tables, exThreads⟩ s) {c c' : Nat} {call call' : Traffic.Call}
    (hc : s.calls[c]? = some call) (hd : call.stage = .completed) (hb : RpcBelow s c c')
    (hc' : s.calls[c']? = some call') : call'.stage = .completed :=
  C261_nested hs time_loops time_fan (show RespondsLast timeConfig by unfold RespondsLast; decide) h hc hd hb hc'

/-- Once the lists with which the engines began are over, all RPCs of the test are back at their clients and all
runs of lists have done all their actions. -/
theorem C261_done {e : Env} {w : Test} {fan : Str → Nat} {s : State}
    (hs : SoundTest e w) (hp : LoopTest w.cfg) (hf : FanOuts w.cfg fan) (hl : RespondsLast w.cfg) (h : Reach w s)
    (hroot : ∀ k ∈ s.jobs, k.parent = .root → k.main.phase = .done) :
    (∀ r ∈ s.calls, r.stage = .completed) ∧
      ∀ k ∈ s.jobs, ∀ a < k.entry.listActions.length,
        (k.main.acts a).skipped = true ∨ (k.main.acts a).called = true := by
  obtain ⟨ops, t, hsim⟩ := sim hs hp hf h
  have hg := truns_global hs hf hsim.runs
  have hI := Traffic.inv_timed hg
  have hL := Traffic.lateInv_timed (no_early hs hl _) hg
  rw [hsim.base] at hI hL
  have hall := Traffic.all_ended hI hL (by
    intro k hk hpar
    obtain ⟨y, hy, rfl⟩ := List.mem_map.1 hk
    refine decide_eq_true (hroot y hy ?_)
    have hpar : absParent s y.parent = .root := hpar
    cases hyp : y.parent with
    | root => rfl
    | call c => rw [hyp] at hpar; cases hpar
    | action j a n => rw [hyp] at hpar; cases hpar)
  constructor
  · intro r hr
    obtain ⟨c, hc⟩ := List.getElem?_of_mem hr
    obtain ⟨k, x, fan, y, h1, _⟩ := hI.made c _ (calls_get hc)
    have := Traffic.ended_calls hI (calls_get hc) h1 (hall r.job k h1)
    exact this
  · intro k hk a ha
    obtain ⟨j, hj⟩ := List.getElem?_of_mem hk
    have := hall j _ (abs_get hj) a _ (acts_get (List.getElem?_eq_getElem ha) s)
    unfold absAct at this
    split at this
    · cases this
    · next h1 =>
      split at this
      · next h2 => exact .inl h2
      · split at this
        · next h3 => exact .inr h3
        · cases this

example {tables : Nat → Tables} (hs : SoundTest sampleEnv ⟨timeConfig, tables, exThreads⟩) {s : State}
    (h : Reach ⟨timeConfig, tables, exThreads⟩ s) (hroot : ∀ k ∈ s.jobs, k.parent = .root → k.main.phase = .done) :
    ∀ r ∈ s.calls, r.stage = .completed :=
  (C261_done hs time_loops time_fan (show RespondsLast timeConfig by unfold RespondsLast; decide) h hroot).1

/-! ### The iterations of each action (C262) -/

/-- When a run of a list is over, each of its actions was skipped and has begun no iteration, or has begun at
least the iterations that begin in any case, and if it has no time limit exactly as many as its number says. -/
theorem C262_begun {e : Env} {w : Test} {fan : Str → Nat} {s : State} {k : Job} {a : Nat} {act : Action}
    (hs : SoundTest e w) (hp : LoopTest w.cfg) (hf : FanOuts w.cfg fan) (h : Reach w s) (hk : k ∈ s.jobs)
    (ho : k.main.phase = .done) (ha : ActionAt w.cfg k a act) :
    ((k.main.acts a).skipped = true ∧ loopIterations k a = 0) ∨
    ((k.main.acts a).skipped = false ∧ fewestIterations act ≤ loopIterations k a ∧
      (¬ hasTimeLimit act → loopIterations k a = iterationCount act)) := by
  obtain ⟨ops, t, hsim⟩ := sim hs hp hf h
  have hI := Traffic.inv_timed (truns_global hs hf hsim.runs)
  rw [hsim.base] at hI
  obtain ⟨j, hj⟩ := List.getElem?_of_mem hk
  have hok := hsim.inv.jobs j k hj
  obtain ⟨x, hx, rfl, hm⟩ := entry_at_name hs hok ha
  cases hsk : (k.main.acts a).skipped with
  | true =>
    refine .inl ⟨rfl, ?_⟩
    unfold loopIterations
    cases hu : k.under a with
    | none => rfl
    | some u =>
      obtain ⟨_, _, _, _, h5, _⟩ := hok.under a u hu
      rw [hsk] at h5
      cases h5
  | false =>
    have hend := hI.over j _ (abs_get hj) (decide_eq_true ho) a _ (acts_get hx s)
    have hc : (k.main.acts a).called = true := by
      unfold absAct at hend
      split at hend
      · cases hend
      · rw [if_neg (by rw [hsk]; simp)] at hend
        split at hend
        · next h3 => exact h3
        · cases hend
    obtain ⟨h1, h2⟩ := begun_done hs hp hok hx hc hsk
    refine .inr ⟨rfl, h1, fun hno => ?_⟩
    rw [h2 hno]
    unfold fewestIterations iterationCount
    cases hi : x.proto.iterations with
    | none => rfl
    | some it =>
      dsimp only
      cases hd : it.maxDurationUs with
      | none => rfl
      | some us => exact absurd ⟨it, hi, by rw [hd]; simp⟩ hno

/-- The clients ask at least twice; the servers write at least once, and three times at most. -/
example {tables : Nat → Tables} (hs : SoundTest sampleEnv ⟨timeConfig, tables, exThreads⟩) {s : State}
    (h : Reach ⟨timeConfig, tables, exThreads⟩ s) {k : Job} (hk : k ∈ s.jobs) (ho : k.main.phase = .done)
    (hl : k.list = 0) (hsk : (k.main.acts 0).skipped = false) : 2 ≤ loopIterations k 0 := by
  rcases C262_begun (a := 0) (act := timeConfig.actions[0]) hs time_loops time_fan h hk ho
    ⟨exConfig.actionLists[0], "ask".toList, by rw [hl]; rfl, rfl, by rfl⟩ with h1 | h1
  · rw [hsk] at h1
    cases h1.1
  · exact h1.2.1

/-- At no time has an action of a run begun more iterations than its number says. -/
theorem C262_most {e : Env} {w : Test} {fan : Str → Nat} {s : State} {k : Job} {a : Nat} {act : Action}
    (hs : SoundTest e w) (hp : LoopTest w.cfg) (hf : FanOuts w.cfg fan) (h : Reach w s) (hk : k ∈ s.jobs)
    (ha : ActionAt w.cfg k a act) :
    (act.iterations = none → loopIterations k a ≤ 1) ∧
    ∀ it n, act.iterations = some it → it.maxIterationCount = some n → (loopIterations k a : Int) ≤ n := by
  obtain ⟨ops, t, hsim⟩ := sim hs hp hf h
  obtain ⟨j, hj⟩ := List.getElem?_of_mem hk
  have hok := hsim.inv.jobs j k hj
  obtain ⟨x, hx, rfl, hm⟩ := entry_at_name hs hok ha
  unfold loopIterations
  cases hu : k.under a with
  | none =>
    refine ⟨fun _ => Nat.zero_le _, fun it n hi hn => ?_⟩
    have := (hp.limited _ hm it hi).2
    rw [hn] at this
    dsimp only at this ⊢
    omega
  | some u =>
    obtain ⟨x', hx', hg, -⟩ := hok.under a u hu
    rw [hx] at hx'
    cases hx'
    have hb := Iterations.good_bound hg
    unfold Job.params Iterations.params at hb
    dsimp only at hb ⊢
    refine ⟨fun hi => ?_, fun it n hi hn => ?_⟩
    · rw [hi] at hb
      exact hb
    · have := (hp.limited _ hm it hi).2
      rw [hi] at hb
      dsimp only at hb
      rw [hn] at hb this
      rw [Option.getD_some] at hb
      dsimp only at this
      omega

example {tables : Nat → Tables} (hs : SoundTest sampleEnv ⟨timeConfig, tables, exThreads⟩) {s : State}
    (h : Reach ⟨timeConfig, tables, exThreads⟩ s) {k : Job} (hk : k ∈ s.jobs) (hl : k.list = 2) :
    (loopIterations k 0 : Int) ≤ 3 :=
  (C262_most (a := 0) (act := timeConfig.actions[3]) hs time_loops time_fan h hk
    ⟨exConfig.actionLists[2], "keep".toList, by rw [hl]; rfl, rfl, by rfl⟩).2 _ 3 rfl rfl

/-! ### A test can always be brought to its end (C263) -/

/-- From every state of a test, however its threads were scheduled so far, there is a way to the end, on which
all threads are through and all RPCs are back: no lock, queue, thread pool or loop of the engines ever
blocks it.  (Provided that no number of iterations has overflowed.) -/
theorem C263_finish {e : Env} {w : Test} {fan level layer : Str → Nat} {s : State}
    (hs : SoundTest e w) (hp : LoopTest w.cfg) (he : EndableTest w.cfg) (hf : FanOuts w.cfg fan)
    (hl : NameLevels w.cfg level) (hc : ClientsDeclared w.cfg) (hy : LayeredServices w layer)
    (ht : ∀ g, w.threads g ≠ some 0) (h : Reach w s) (ho : NumbersFit s) :
    ∃ s', Leads w s s' ∧ LoopsOver s' ∧ NumbersFit s' := by
  obtain ⟨bound, hbound⟩ := Traffic.C249_ends (levels_global hs hl (fanAt w.cfg fan))
  obtain ⟨ops, t, hsim⟩ := sim hs hp hf h
  have key : ∀ n (s : State) (ops : List Traffic.TOp) (t : Traffic.TState), bound - timedSteps ops = n →
      Reach w s → Sim w s ops t → NumbersFit s → ∃ s', Leads w s s' ∧ LoopsOver s' ∧ NumbersFit s' := by
    intro n
    induction n using Nat.strongRecOn with
    | ind n ih =>
      intro s ops t hn hr hsim ho
      by_cases hover : LoopsOver s
      · exact ⟨s, .refl, hover, ho⟩
      · obtain ⟨s1, ops1, t1, h1, h2, h3, h4⟩ := progress hs hp he hf hc hy ht hr hsim ho hover
        have hb := hbound ops1 t1 (truns_global hs hf h3.runs)
        obtain ⟨s2, g1, g2⟩ := ih (bound - timedSteps ops1) (by omega) s1 ops1 t1 rfl (h1.reach hr) h3 h2
        exact ⟨s2, h1.trans g1, g2⟩
  exact key _ s ops t rfl h hsim ho

/-- If each loop has a maximal number of iterations, no number overflows, and the same holds of every state. -/
theorem C263_counted {e : Env} {w : Test} {fan level layer : Str → Nat} {s : State}
    (hs : SoundTest e w) (hp : LoopTest w.cfg) (hn : CountedLoops w.cfg)
    (hk : ∀ a ∈ w.cfg.actions, a.kind = .none → a.responsePayloadOverride.isSome) (hf : FanOuts w.cfg fan)
    (hl : NameLevels w.cfg level) (hc : ClientsDeclared w.cfg) (hy : LayeredServices w layer)
    (ht : ∀ g, w.threads g ≠ some 0) (h : Reach w s) : NumbersFit s ∧ ∃ s', Leads w s s' ∧ LoopsOver s' := by
  have hfit : NumbersFit s := by
    obtain ⟨ops, t, hsim⟩ := sim hs hp hf h
    intro k hk a u hu
    obtain ⟨j, hj⟩ := List.getElem?_of_mem hk
    have hok := hsim.inv.jobs j k hj
    obtain ⟨x, hx, hg, -⟩ := hok.under a u hu
    have hm := proto_mem hs hok.entry hx
    have hlim : (k.params x u).limit < 2 ^ 31 := by
      show (match x.proto.iterations with | none => 1 | some i => i.maxIterationCount.getD (2 ^ 63 - 1)) < 2 ^ 31
      cases hi : x.proto.iterations with
      | none => exact show (1 : Int) < 2 ^ 31 by decide
      | some it =>
        have h2 := (hp.limited _ hm it hi).2
        cases hcn : it.maxIterationCount with
        | none => exact absurd hcn (hn _ hm it hi)
        | some n =>
          rw [hcn] at h2
          dsimp only
          rw [hcn]
          exact h2.2
    rcases hg.shape with ⟨-, h1, -⟩ | ⟨-, h1⟩
    · exact h1.ub hlim
    · exact h1.ub hlim
  obtain ⟨s', h1, h2, -⟩ := C263_finish hs hp ⟨hk, fun a ha it hi _ => hn a ha it hi⟩ hf hl hc hy ht h hfit
  exact ⟨hfit, s', h1, h2⟩

theorem time_endable : EndableTest timeConfig := by
  constructor
  · decide
  · intro a ha it hi
    simp only [timeConfig, List.mem_cons, List.not_mem_nil, or_false] at ha
    rcases ha with rfl | rfl | rfl | rfl <;> cases hi <;> simp

theorem ex_counted : CountedLoops exConfig := by
  intro a ha it hi
  simp only [exConfig, List.mem_cons, List.not_mem_nil, or_false] at ha
  rcases ha with rfl | rfl | rfl | rfl <;> cases hi <;> simp

/-- The example with time limits comes to an end, after 18 RPCs of each kind or more. -/
theorem loops_end : ∃ tables s, SoundTest sampleEnv ⟨timeConfig, tables, exThreads⟩ ∧
    Reach ⟨timeConfig, tables, exThreads⟩ s ∧ LoopsOver s ∧ 18 ≤ rpcsNamed timeConfig s "query".toList ∧
    18 ≤ rpcsNamed timeConfig s "save".toList := by
  obtain ⟨tables, hs⟩ := time_sound
  obtain ⟨s0, h0⟩ := start_exists hs
  have hfit : NumbersFit s0 := by
    intro k hk a u hu
    obtain ⟨ops, t, hsim⟩ := sim hs time_loops time_fan (.start h0)
    obtain ⟨j, hj⟩ := List.getElem?_of_mem hk
    have hlt := (List.getElem?_eq_some_iff.1 hj).1
    obtain ⟨k', h4, h5⟩ := h0.2.2 j _ (List.getElem?_eq_getElem (by rw [← h0.2.1]; exact hlt))
    rw [hj] at h4
    cases h4
    exact none_opens h5 a u hu
  obtain ⟨s, h1, h2, -⟩ := C263_finish hs time_loops time_endable time_fan time_levels time_clients
    (time_layered tables) ex_threads (.start h0) hfit
  have hr := h1.reach (.start h0)
  refine ⟨tables, s, hs, hr, h2, ?_, ?_⟩
  · rw [← time_totals.1]
    exact C259_at_least hs time_plain time_loops.activities time_fan ex_query (time_fewest _ ex_query) hr h2
  · rw [← time_totals.2.1]
    exact C259_at_least hs time_plain time_loops.activities time_fan ex_save (time_fewest _ ex_save) hr h2

/-- The example without time limits comes to an end from every state, after exactly 54 RPCs named `save`. -/
example : ∃ tables, SoundTest sampleEnv ⟨exConfig, tables, exThreads⟩ ∧
    (∃ s, Reach ⟨exConfig, tables, exThreads⟩ s) ∧
    ∀ s, Reach ⟨exConfig, tables, exThreads⟩ s → ∃ s', Leads ⟨exConfig, tables, exThreads⟩ s s' ∧ LoopsOver s' ∧
      rpcsNamed exConfig s' "save".toList = 54 := by
  obtain ⟨tables, hs⟩ := ex_sound
  obtain ⟨s0, h0⟩ := start_exists hs
  refine ⟨tables, hs, ⟨s0, .start h0⟩, fun s h => ?_⟩
  obtain ⟨-, s', h1, h2⟩ := C263_counted hs (loop_of_time (time_of_plain ex_plain) ex_loops) ex_counted
    (fun a ha => (ex_plain.kinds a ha).2) ex_fan ex_levels ex_clients (ex_layered tables) ex_threads h
  exact ⟨s', h1, h2, (C259_exact hs ex_plain ex_loops ex_fan ex_save (ex_predicts _ ex_save) (h1.reach h) h2).trans ex_saves⟩

end Distbench.Loops
