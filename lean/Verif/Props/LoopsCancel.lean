import Verif.Lemmas.LoopsAll
import Verif.Props.Loops

/-! Properties of whole tests whose traffic may be cancelled, with the loops of the engines in full: C264-C269. -/

namespace Distbench.LoopsCancel
open Tables Services Whole Spec Loops

/-! ### A concrete test -/

/-- As `exConfig`, but the clients ask two at a time without end; at the same time they ask one question, and
when it is answered they cancel their traffic. -/
def stopConfig : Config :=
  { exConfig with
    actions := [{ name := "ask".toList, kind := .rpc "query".toList
                  iterations := some { maxParallelIterations := 2 } },
                { name := "again".toList, kind := .actionList "sub".toList },
                { name := "one".toList, kind := .rpc "query".toList, cancelTrafficWhenDone := true },
                { name := "keep".toList, kind := .rpc "save".toList
                  iterations := some { maxIterationCount := some 3 } }] }

theorem stop_test : CancelTest stopConfig := by
  refine ⟨?_, ?_, ?_⟩
  · intro a ha n h
    simp only [stopConfig, List.mem_cons, List.not_mem_nil, or_false] at ha
    rcases ha with rfl | rfl | rfl | rfl <;> cases h
  · intro a ha it hi
    simp only [stopConfig, List.mem_cons, List.not_mem_nil, or_false] at ha
    rcases ha with rfl | rfl | rfl | rfl <;> cases hi <;> rfl
  · intro a ha it hi
    simp only [stopConfig, List.mem_cons, List.not_mem_nil, or_false] at ha
    rcases ha with rfl | rfl | rfl | rfl <;> cases hi
    · exact ⟨by decide, by decide⟩
    · exact ⟨by decide, by decide, by decide⟩

theorem stop_sound : ∃ tables, SoundTest sampleEnv ⟨stopConfig, tables, exThreads⟩ :=
  C245_accepted (raw := { stopConfig with services := exText.services }) ex_fields rfl rfl
    ⟨by decide, by decide, by decide, by decide, by decide⟩ (by simp [stopConfig, exConfig]) exThreads

theorem stop_fan : FanOuts stopConfig exFan := ex_fan

/-- All engines below a number can be cancelled. -/
theorem cancel_below {w : Test} {s : State} (h : Reach w s) (n : Nat) :
    ∃ s', Reach w s' ∧ (∀ e < n, s'.cancelled e = true) ∧ s'.base.jobs.length = s.base.jobs.length := by
  induction n with
  | zero => exact ⟨s, h, fun e he => absurd he (by omega), rfl⟩
  | succ n ih =>
    obtain ⟨s', h1, h2, h3⟩ := ih
    refine ⟨_, .step h1 (.cancel n), ?_, ?_⟩
    · intro e he
      by_cases hen : e = n
      · simp [settle, hen]
      · simp [settle, h2 e (by omega)]
    · simp [settle, h3]

/-- The example can begin, and can be cancelled as a whole. -/
example : ∃ tables s, SoundTest sampleEnv ⟨stopConfig, tables, exThreads⟩ ∧
    Reach ⟨stopConfig, tables, exThreads⟩ s ∧ AllCancelled stopConfig s ∧
    s.base.jobs.length = (roots stopConfig).length := by
  obtain ⟨tables, hs⟩ := stop_sound
  obtain ⟨b, h⟩ := start_exists hs
  obtain ⟨s, h1, h2, h3⟩ := cancel_below (.start h) 6
  refine ⟨tables, s, hs, h1, ?_, h3.trans h.2.1⟩
  intro e i hi
  apply h2
  unfold serviceOf at hi
  obtain ⟨p, hp, -⟩ := Option.map_eq_some_iff.1 hi
  have := (List.getElem?_eq_some_iff.1 hp).1
  exact Nat.lt_of_lt_of_eq this (by decide)

theorem stop_levels : NameLevels stopConfig exLevel := by
  rintro l l' ⟨al, hal, rfl, n, hn, a, ha, rfl, hk⟩
  simp only [stopConfig, exConfig, List.mem_cons, List.not_mem_nil, or_false] at hal ha
  rcases hal with rfl | rfl | rfl | rfl <;> rcases ha with rfl | rfl | rfl | rfl <;>
    first
    | exact absurd hn (by decide)
    | (rcases hk with hk | hk <;> cases hk <;> decide)

theorem stop_may {s l : Str} (h : MayRunName stopConfig s l) : MayRunName exConfig s l := by
  induction h with
  | own hs => exact .own hs
  | serves hr => exact .serves hr
  | @nested s l al a hmay hal ha hn hk ih =>
    simp only [stopConfig, List.mem_cons, List.not_mem_nil, or_false] at ha
    rcases ha with rfl | rfl | rfl | rfl <;> cases hk
    exact .nested ih hal (a := exConfig.actions[1]) (by decide) hn rfl

theorem stop_clients : ClientsDeclared stopConfig := by
  intro s al a r hm hal ha hn hr hk
  simp only [stopConfig, List.mem_cons, List.not_mem_nil, or_false] at ha
  rcases ha with rfl | rfl | rfl | rfl
  · exact ex_clients s al exConfig.actions[0] r (stop_may hm) hal (by decide) hn hr hk
  · cases hk
  · exact ex_clients s al exConfig.actions[2] r (stop_may hm) hal (by decide) hn hr hk
  · exact ex_clients s al exConfig.actions[3] r (stop_may hm) hal (by decide) hn hr hk

/-! ### Every RPC is handled once, or not at all once its target is cancelled (C264) -/

/-- The lists that were run for an RPC: never more than one, which is the list with the name of the RPC, at the
engine that it was sent to; none as long as it has not reached a thread of its server; one when it is being
handled; and one when it has come back, unless that list is empty or the grace period of the cancelled engine
that it was sent to is over. -/
theorem C264_once {e : Env} {w : Test} {fan : Str → Nat} {s : State} {c : Nat} {call : Traffic.Call} {r : RpcSpec}
    {al : ActionList} (hs : SoundTest e w) (hp : CancelTest w.cfg) (hf : FanOuts w.cfg fan) (h : Reach w s)
    (hc : s.base.calls[c]? = some call) (hr : w.cfg.rpcs[call.rpc]? = some r) (hal : al ∈ w.cfg.actionLists)
    (hn : al.name = r.name) :
    (s.base.jobs.countP fun k => k.parent = .call c) ≤ 1 ∧
    (al.actionNames = [] ∨ call.stage = .sent ∨ call.stage = .queued →
      (s.base.jobs.countP fun k => k.parent = .call c) = 0) ∧
    (call.stage = .running → (s.base.jobs.countP fun k => k.parent = .call c) = 1) ∧
    (call.stage = .answered ∨ call.stage = .completed →
      (s.base.jobs.countP fun k => k.parent = .call c) = 1 ∨ al.actionNames = [] ∨
        (s.cancelled call.target = true ∧ s.refusing call.target = true)) ∧
    ∀ k ∈ s.base.jobs, k.parent = .call c → w.cfg.actionLists[k.list]? = some al ∧ k.engine = call.target := by
  obtain ⟨hP, hA⟩ := reach_inv hs hp h
  obtain ⟨i, al', g1, g2, g3⟩ := handler_list hs (fanAt w.cfg fan) hr
  have heq : al' = al := by
    obtain ⟨i', hi'⟩ := List.getElem?_of_mem hal
    have := names_inj hs.distinct.lists g1 hi' (by rw [g2, hn])
    subst this
    rw [g1] at hi'
    exact Option.some.inj hi'
  subst heq
  have hhand := call_handler hs hf hP hA hc
  have hle := count_le_one (p := fun k : Job => decide (k.parent = .call c)) (l := s.base.jobs) (by
    intro i i' k k' hi hi' hk hk'
    exact hA.unique i i' k k' hi hi' c (by simpa using hk) (by simpa using hk'))
  have hsome : (∃ k ∈ s.base.jobs, k.parent = .call c) →
      (s.base.jobs.countP fun k => k.parent = .call c) = 1 := by
    rintro ⟨k, hk, hkp⟩
    have : 0 < s.base.jobs.countP fun k => k.parent = .call c := List.countP_pos_iff.2 ⟨k, hk, by simp [hkp]⟩
    omega
  refine ⟨hle, ?_, ?_, ?_, ?_⟩
  · intro hor
    rw [List.countP_eq_zero]
    intro k hk hkp
    simp only [decide_eq_true_eq] at hkp
    obtain ⟨j, hj⟩ := List.getElem?_of_mem hk
    obtain ⟨r', f1, -, -, f2⟩ := hP.served j k hj c hkp
    rw [hc] at f1
    cases f1
    have f3 := (hA.stage j k hj c call hkp hc).1
    rcases hor with h1 | h1 | h1
    · rcases g3 with ⟨-, g4⟩ | ⟨g3, -⟩
      · rw [hhand, g4] at f2
        cases f2
      · exact g3 h1
    · rw [h1] at f3
      simp [stageNumber] at f3
    · rw [h1] at f3
      simp [stageNumber] at f3
  · intro hst
    obtain ⟨j, k, f1, f2⟩ := hA.running c call hc hst
    exact hsome ⟨k, List.mem_of_getElem? f1, f2⟩
  · intro hst
    have h3 : 3 ≤ stageNumber call.stage := by rcases hst with h1 | h1 <;> rw [h1] <;> simp [stageNumber]
    rcases reach_back hs hp h c call hc h3 with f | f | f
    · exact .inl (hsome f)
    · rcases g3 with ⟨g3, -⟩ | ⟨-, g4⟩
      · exact .inr (.inl g3)
      · rw [hhand, g4] at f
        cases f
    · exact .inr (.inr ⟨refusing_cancelled h f, f⟩)
  · intro k hk hkp
    obtain ⟨j, hj⟩ := List.getElem?_of_mem hk
    obtain ⟨r', f1, -, f2, f3⟩ := hP.served j k hj c hkp
    rw [hc] at f1
    cases f1
    refine ⟨?_, f2⟩
    rw [hhand] at f3
    rcases g3 with ⟨-, g4⟩ | ⟨-, g4⟩
    · rw [g4] at f3
      cases f3
    · rw [g4] at f3
      injection f3 with f3
      rw [← f3]
      exact g1

/-- A question that is answered was handled, unless the server that it was sent to had been cancelled. -/
example {tables : Nat → Tables} (hs : SoundTest sampleEnv ⟨stopConfig, tables, exThreads⟩) {s : State}
    (h : Reach ⟨stopConfig, tables, exThreads⟩ s) {c : Nat} {call : Traffic.Call} (hc : s.base.calls[c]? = some call)
    (hr : call.rpc = 0) (hst : call.stage = .completed) (hn : s.cancelled call.target = false) :
    (s.base.jobs.countP fun k => k.parent = .call c) = 1 := by
  have := (C264_once (r := exConfig.rpcs[0]) (al := exConfig.actionLists[2]) hs stop_test stop_fan h hc
    (by rw [hr]; rfl) (show exConfig.actionLists[2] ∈ exConfig.actionLists by decide) (by decide)).2.2.2.1 (.inr hst)
  rcases this with h1 | h1 | h1
  · exact h1
  · exact absurd h1 (by decide)
  · rw [hn] at h1
    cases h1.1

/-- What an RPC is stays the same, and it goes on from stage to stage and never back, cancelled or not. -/
theorem C264_forward {e : Env} {w : Test} {s s' : State} {c : Nat} {call : Traffic.Call}
    (hs : SoundTest e w) (hp : CancelTest w.cfg) (h : Reach w s) (hl : CLeads w s s')
    (hc : s.base.calls[c]? = some call) :
    ∃ call', s'.base.calls[c]? = some call' ∧ call' = { call with stage := call'.stage } ∧
      stageNumber call.stage ≤ stageNumber call'.stage := by
  induction hl with
  | refl => exact ⟨call, hc, rfl, Nat.le_refl _⟩
  | step h1 h2 ih =>
    obtain ⟨call1, g1, g2, g3⟩ := ih
    obtain ⟨hP, hA⟩ := reach_inv hs hp (h1.reach h)
    obtain ⟨st, f1, f2⟩ := step_stage hs hp hP hA h2 g1
    exact ⟨_, f1, by rw [g2], Nat.le_trans g3 f2⟩

example {tables : Nat → Tables} (hs : SoundTest sampleEnv ⟨stopConfig, tables, exThreads⟩) {s s' : State}
    (h : Reach ⟨stopConfig, tables, exThreads⟩ s) (hl : CLeads ⟨stopConfig, tables, exThreads⟩ s s') {c : Nat}
    {call : Traffic.Call} (hc : s.base.calls[c]? = some call) (hst : call.stage = .completed) :
    s'.base.calls[c]? = some call := by
  obtain ⟨call', h1, h2, h3⟩ := C264_forward hs stop_test h hl hc
  rw [h1, h2]
  congr 1
  rw [hst] at h3
  have : call'.stage = call.stage := by
    rw [hst]
    revert h3
    cases call'.stage <;> simp [stageNumber]
  rw [this]

/-! ### The latency of an RPC covers all that is done for it (C265) -/

/-- If no action sends the response before its list ends, then by the time an RPC is back at its client all
RPCs made for its sake, directly or through others, are back at theirs, also if traffic was cancelled. -/
theorem C265_nested {e : Env} {w : Test} {s : State} {c c' : Nat} {call call' : Traffic.Call}
    (hs : SoundTest e w) (hp : CancelTest w.cfg) (hl : RespondsLast w.cfg) (h : Reach w s)
    (hc : s.base.calls[c]? = some call) (hd : call.stage = .completed) (hb : RpcBelow s.base c c')
    (hc' : s.base.calls[c']? = some call') : call'.stage = .completed := by
  obtain ⟨hP, hA⟩ := reach_inv hs hp h
  exact (below_reported hs hl hP hA hc (by rw [hd]; simp)).2 c' hb call' hc'

example {tables : Nat → Tables} (hs : SoundTest sampleEnv ⟨stopConfig, tables, exThreads⟩) {s : State}
    (h : Reach ⟨stopConfig, tables, exThreads⟩ s) {c c' : Nat} {call call' : Traffic.Call}
    (hc : s.base.calls[c]? = some call) (hd : call.stage = .completed) (hb : RpcBelow s.base c c')
    (hc' : s.base.calls[c']? = some call') : call'.stage = .completed :=
  C265_nested hs stop_test (show RespondsLast stopConfig by unfold RespondsLast; decide) h hc hd hb hc'

/-- When a run of a list is over, all RPCs that it made are back, and all lists that it ran are over, whatever
was cancelled and whenever responses are sent. -/
theorem C265_over {e : Env} {w : Test} {s : State} {j : Nat} {k : Job}
    (hs : SoundTest e w) (hp : CancelTest w.cfg) (h : Reach w s) (hj : s.base.jobs[j]? = some k)
    (hd : k.main.phase = .done) :
    (∀ r ∈ s.base.calls, r.job = j → r.stage = .completed) ∧
    ∀ k' ∈ s.base.jobs, ∀ a n, k'.parent = .action j a n → k'.main.phase = .done := by
  obtain ⟨hP, hA⟩ := reach_inv hs hp h
  have hrep := done_reported hA hj hd
  constructor
  · intro r hr hrj
    obtain ⟨c, hc⟩ := List.getElem?_of_mem hr
    have := hA.calls c r hc
    rw [hrj] at this
    exact reported_over hA hj hrep this
  · intro k' hk' a n hp'
    obtain ⟨i, hi⟩ := List.getElem?_of_mem hk'
    exact reported_over hA hj hrep (hA.parents i k' hi j a n hp')

example {tables : Nat → Tables} (hs : SoundTest sampleEnv ⟨stopConfig, tables, exThreads⟩) {s : State}
    (h : Reach ⟨stopConfig, tables, exThreads⟩ s) {k : Job} (hj : s.base.jobs[0]? = some k)
    (hd : k.main.phase = .done) : ∀ r ∈ s.base.calls, r.job = 0 → r.stage = .completed :=
  (C265_over hs stop_test h hj hd).1

/-! ### Iterations after cancellation (C266) -/

/-- Once an engine is cancelled, each action of each of its runs begins at most as many further iterations as it
may have under way at once; this holds also for the runs that begin later. -/
theorem C266_bound {e : Env} {w : Test} {s s' : State} {j a : Nat} {k : Job} {act : Action}
    (hs : SoundTest e w) (hp : CancelTest w.cfg) (h : Reach w s) (hl : CLeads w s s')
    (hj : s'.base.jobs[j]? = some k) (hc : s.cancelled k.engine = true) (ha : ActionAt w.cfg k a act) :
    iterationsOf s'.base j a ≤ iterationsOf s.base j a + parallelOf act := by
  have hr' := hl.reach h
  have hk := (reach_inv hs hp hr').2.fine j k hj
  obtain ⟨x, hx, rfl, hm⟩ := name_entry hs hk.entry ha
  have h1 := leads_allot hs hp h hl j k hj hc a x hx
  obtain ⟨q1, -, q2, -⟩ := closed_params 0 false (hp.closedLoops _ hm) (hp.limited _ hm)
  have h2 := le_allot hk hx q1
  have h3 : iterationsOf s'.base j a = loopIterations k a := by
    unfold iterationsOf
    rw [hj]
  rw [h3]
  omega

/-- The clients ask at most two more questions each, in all their runs. -/
example {tables : Nat → Tables} (hs : SoundTest sampleEnv ⟨stopConfig, tables, exThreads⟩) {s s' : State}
    (h : Reach ⟨stopConfig, tables, exThreads⟩ s) (hl : CLeads ⟨stopConfig, tables, exThreads⟩ s s') {j : Nat} {k : Job}
    (hj : s'.base.jobs[j]? = some k) (hc : s.cancelled k.engine = true) (hk : k.list = 0) :
    iterationsOf s'.base j 0 ≤ iterationsOf s.base j 0 + 2 :=
  C266_bound (act := stopConfig.actions[0]) hs stop_test h hl hj hc
    ⟨exConfig.actionLists[0], "ask".toList, by rw [hk]; rfl, rfl, by rfl⟩

/-- A cancelled engine stays cancelled. -/
theorem C266_stays {w : Test} {s s' : State} {e : Nat} (hl : CLeads w s s') (hc : s.cancelled e = true) :
    s'.cancelled e = true := by
  induction hl with
  | refl => exact hc
  | step _ h2 ih => exact step_cancelled h2 ih

example {w : Test} {s : State} (h : Reach w s) : ∃ s', Reach w s' ∧ ∀ s'', CLeads w s' s'' → s''.cancelled 3 = true := by
  obtain ⟨s', h1, h2, -⟩ := cancel_below h 4
  exact ⟨s', h1, fun s'' hl => C266_stays hl (h2 3 (by omega))⟩

/-! ### A cancelled test ends (C267) -/

/-- Once all engines are cancelled, and as long as no number of iterations is at the end of the range of an
`int`, the test can at every later moment be brought to its end, in which all lists are over and all RPCs are
back. -/
theorem C267_finish {e : Env} {w : Test} {fan level layer : Str → Nat} {s s' : State} (hs : SoundTest e w)
    (hp : CancelTest w.cfg) (hk : ∀ a ∈ w.cfg.actions, a.kind = .none → a.responsePayloadOverride.isSome)
    (hf : FanOuts w.cfg fan) (hl : NameLevels w.cfg level) (hc : ClientsDeclared w.cfg)
    (hy : LayeredServices w layer) (ht : ∀ g, w.threads g ≠ some 0) (h : Reach w s)
    (hcan : AllCancelled w.cfg s) (hroom : RoomLeft w.cfg s.base) (hs' : CLeads w s s') :
    ∃ s'', CLeads w s' s'' ∧ LoopsOver s''.base :=
  ends_from ⟨⟨hs, hp, hk, hf, hl, hc⟩, hy, ht⟩ h hcan hroom s' hs'

/-- If each loop has a maximal number of iterations, no number of iterations ever leaves the range of an `int`. -/
theorem counted_room {e : Env} {w : Test} {s : State} (hs : SoundTest e w) (hp : CancelTest w.cfg)
    (hn : CountedLoops w.cfg) (h : Reach w s) : RoomLeft w.cfg s.base := by
  intro k hkm a act u ha hu
  obtain ⟨j, hj⟩ := List.getElem?_of_mem hkm
  have hfine := (reach_inv hs hp h).2.fine j k hj
  obtain ⟨x, hx, rfl, hm⟩ := name_entry hs hfine.entry ha
  obtain ⟨x', g1, g2, -⟩ := hfine.under a u hu
  rw [hx] at g1
  cases g1
  refine ⟨g2.counts.ub ?_, fun ⟨it, hi, hno⟩ => absurd hno (hn _ hm it hi)⟩
  show (match x.proto.iterations with | none => 1 | some i => i.maxIterationCount.getD (2 ^ 63 - 1)) < 2 ^ 31
  cases hi : x.proto.iterations with
  | none => exact show (1 : Int) < 2 ^ 31 by decide
  | some it =>
    have h2 := (hp.limited _ hm it hi).2
    cases hcn : it.maxIterationCount with
    | none => exact absurd hcn (hn _ hm it hi)
    | some n =>
      rw [hcn] at h2
      dsimp only
      rw [hcn]
      exact h2.2

/-- If each loop has a maximal number of iterations, nothing is asked of the moment of cancellation. -/
theorem C267_counted {e : Env} {w : Test} {fan level layer : Str → Nat} {s s' : State} (hs : SoundTest e w)
    (hp : CancelTest w.cfg) (hn : CountedLoops w.cfg)
    (hk : ∀ a ∈ w.cfg.actions, a.kind = .none → a.responsePayloadOverride.isSome)
    (hf : FanOuts w.cfg fan) (hl : NameLevels w.cfg level) (hc : ClientsDeclared w.cfg)
    (hy : LayeredServices w layer) (ht : ∀ g, w.threads g ≠ some 0) (h : Reach w s)
    (hcan : AllCancelled w.cfg s) (hs' : CLeads w s s') :
    ∃ s'', CLeads w s' s'' ∧ LoopsOver s''.base :=
  C267_finish hs hp hk hf hl hc hy ht h hcan (counted_room hs hp hn h) hs'

/-- The example can be cancelled at the start, before anything is under way. -/
theorem stop_cancelled : ∃ tables s, SoundTest sampleEnv ⟨stopConfig, tables, exThreads⟩ ∧
    Reach ⟨stopConfig, tables, exThreads⟩ s ∧ 0 < s.base.jobs.length ∧ AllCancelled stopConfig s ∧
    (∃ k ∈ s.base.jobs, k.main.phase ≠ .done) ∧ RoomLeft stopConfig s.base := by
  obtain ⟨tables, hs⟩ := stop_sound
  obtain ⟨b, h⟩ := start_exists hs
  have hstart : ∀ k ∈ b.jobs, (∀ a, k.under a = none) ∧ k.main.phase ≠ .done := by
    intro k hk
    obtain ⟨j, hj⟩ := List.getElem?_of_mem hk
    have hlt := (List.getElem?_eq_some_iff.1 hj).1
    obtain ⟨k', h4, h5⟩ := h.2.2 j _ (List.getElem?_eq_getElem (by rw [← h.2.1]; exact hlt))
    rw [hj] at h4
    cases h4
    refine ⟨(opens_fresh h5).1, ?_⟩
    obtain ⟨entry, draw, now, warmup, g1, g2⟩ := h5
    rw [g2]
    simp [ActionList.init]
  have hcancel : ∀ n, ∃ s, Reach ⟨stopConfig, tables, exThreads⟩ s ∧ (∀ e < n, s.cancelled e = true) ∧
      s.base.jobs.length = b.jobs.length ∧ ∀ k ∈ s.base.jobs, (∀ a, k.under a = none) ∧ k.main.phase ≠ .done := by
    intro n
    induction n with
    | zero => exact ⟨_, .start h, fun e he => absurd he (by omega), rfl, hstart⟩
    | succ n ih =>
      obtain ⟨s, h1, h2, h3, h4⟩ := ih
      refine ⟨_, .step h1 (.cancel n), ?_, ?_, ?_⟩
      · intro e he
        by_cases hen : e = n
        · simp [settle, hen]
        · simp [settle, h2 e (by omega)]
      · simp [settle, h3]
      · intro k hk
        obtain ⟨y, hy, rfl⟩ := List.mem_map.1 hk
        split
        · exact ⟨fun a => Option.map_eq_none_iff.2 ((h4 y hy).1 a), (h4 y hy).2⟩
        · exact h4 y hy
  obtain ⟨s, h1, h2, h3, h4⟩ := hcancel 6
  have hpos : 0 < s.base.jobs.length := by
    rw [h3, h.2.1]
    exact show 0 < (roots stopConfig).length by decide
  refine ⟨tables, s, hs, h1, hpos, ?_, ⟨_, List.getElem_mem hpos, (h4 _ (List.getElem_mem hpos)).2⟩, ?_⟩
  · intro e i hi
    apply h2
    unfold serviceOf at hi
    obtain ⟨p, hp, -⟩ := Option.map_eq_some_iff.1 hi
    have := (List.getElem?_eq_some_iff.1 hp).1
    exact Nat.lt_of_lt_of_eq this (show (places stopConfig).length = 6 by decide)
  · intro k hk a act u _ hu
    rw [(h4 k hk).1 a] at hu
    cases hu

/-- The clients of the example would ask without end, but cancelled at the start they do not. -/
example : ∃ tables s, SoundTest sampleEnv ⟨stopConfig, tables, exThreads⟩ ∧ Reach ⟨stopConfig, tables, exThreads⟩ s ∧
    0 < s.base.jobs.length ∧ ∀ s', CLeads ⟨stopConfig, tables, exThreads⟩ s s' →
      ∃ s'', CLeads ⟨stopConfig, tables, exThreads⟩ s' s'' ∧ LoopsOver s''.base := by
  obtain ⟨tables, s, hs, h1, h2, h3, -, h4⟩ := stop_cancelled
  exact ⟨tables, s, hs, h1, h2, fun s' hl => C267_finish hs stop_test (show ∀ a ∈ stopConfig.actions, a.kind = .none →
    a.responsePayloadOverride.isSome by decide) stop_fan stop_levels stop_clients (ex_layered tables) ex_threads
    h1 h3 h4 hl⟩

/-! ### A cancelled test comes to rest under every schedule (C268) -/

/-- Once all engines are cancelled, under every schedule there is a moment from which on nothing is done any more. -/
theorem C268_rest {e : Env} {w : Test} {fan level : Str → Nat} {s : State} {f : Nat → State}
    (hs : SoundTest e w) (hp : CancelTest w.cfg)
    (hk : ∀ a ∈ w.cfg.actions, a.kind = .none → a.responsePayloadOverride.isSome)
    (hf : FanOuts w.cfg fan) (hl : NameLevels w.cfg level) (hc : ClientsDeclared w.cfg)
    (h : Reach w s)
    (hcan : AllCancelled w.cfg s) (hroom : RoomLeft w.cfg s.base) (hsch : Schedule w s f) :
    ∃ N, ∀ n, N ≤ n → EquallyFar (f N).base (f n).base :=
  (rests ⟨hs, hp, hk, hf, hl, hc⟩ h hcan hroom hsch).1

/-- If the schedule does not let threads that could go on wait for ever, then from some moment on all lists are
over and all RPCs are back. -/
theorem C268_end {e : Env} {w : Test} {fan level layer : Str → Nat} {s : State} {f : Nat → State}
    (hs : SoundTest e w) (hp : CancelTest w.cfg)
    (hk : ∀ a ∈ w.cfg.actions, a.kind = .none → a.responsePayloadOverride.isSome)
    (hf : FanOuts w.cfg fan) (hl : NameLevels w.cfg level) (hc : ClientsDeclared w.cfg)
    (hy : LayeredServices w layer) (ht : ∀ g, w.threads g ≠ some 0) (h : Reach w s)
    (hcan : AllCancelled w.cfg s) (hroom : RoomLeft w.cfg s.base) (hsch : Schedule w s f) (hni : NotIdle w f) :
    ∃ N, ∀ n, N ≤ n → LoopsOver (f n).base :=
  (rests ⟨hs, hp, hk, hf, hl, hc⟩ h hcan hroom hsch).2 ⟨layer, hy⟩ ht hni

/-- If each loop has a maximal number of iterations, nothing is asked of the moment of cancellation. -/
theorem C268_counted {e : Env} {w : Test} {fan level layer : Str → Nat} {s : State} {f : Nat → State}
    (hs : SoundTest e w) (hp : CancelTest w.cfg) (hn : CountedLoops w.cfg)
    (hk : ∀ a ∈ w.cfg.actions, a.kind = .none → a.responsePayloadOverride.isSome)
    (hf : FanOuts w.cfg fan) (hl : NameLevels w.cfg level) (hc : ClientsDeclared w.cfg)
    (hy : LayeredServices w layer) (ht : ∀ g, w.threads g ≠ some 0) (h : Reach w s)
    (hcan : AllCancelled w.cfg s) (hsch : Schedule w s f) (hni : NotIdle w f) :
    ∃ N, ∀ n, N ≤ n → LoopsOver (f n).base :=
  C268_end hs hp hk hf hl hc hy ht h hcan (counted_room hs hp hn h) hsch hni

open Classical in
/-- A step that does something if there is one. -/
noncomputable def busyStep (w : Test) (s : State) : State :=
  if h : ∃ s', Step w s s' ∧ ¬ EquallyFar s.base s'.base then choose h
  else settle { s with cancelled := fun i => i == 0 || s.cancelled i } s.base

/-- The steps of a schedule that is not idle. -/
noncomputable def busySchedule (w : Test) (s : State) : Nat → State
  | 0 => s
  | n + 1 => busyStep w (busySchedule w s n)

theorem busy_schedule (w : Test) (s : State) : Schedule w s (busySchedule w s) ∧ NotIdle w (busySchedule w s) := by
  refine ⟨⟨rfl, fun n => ?_⟩, fun N h => ⟨N, Nat.le_refl _, ?_⟩⟩
  · show Step w (busySchedule w s n) (busyStep w (busySchedule w s n))
    unfold busyStep
    split
    · rename_i h
      exact (Classical.choose_spec h).1
    · exact .cancel 0
  · show ¬ EquallyFar (busySchedule w s N).base (busyStep w (busySchedule w s N)).base
    unfold busyStep
    rw [dif_pos (h N (Nat.le_refl _))]
    exact (Classical.choose_spec (h N (Nat.le_refl _))).2

/-- The example, cancelled at the start: not over yet, but in the end. -/
example : ∃ tables s f, SoundTest sampleEnv ⟨stopConfig, tables, exThreads⟩ ∧ Schedule ⟨stopConfig, tables, exThreads⟩ s f ∧
    NotIdle ⟨stopConfig, tables, exThreads⟩ f ∧ ¬ LoopsOver (f 0).base ∧ ∃ N, ∀ n, N ≤ n → LoopsOver (f n).base := by
  obtain ⟨tables, s, hs, h1, h2, h3, ⟨k, hk, hd⟩, h4⟩ := stop_cancelled
  obtain ⟨g1, g2⟩ := busy_schedule ⟨stopConfig, tables, exThreads⟩ s
  exact ⟨tables, s, _, hs, g1, g2, fun ho => hd (ho.1 k hk), C268_end hs stop_test (show ∀ a ∈ stopConfig.actions, a.kind = .none →
    a.responsePayloadOverride.isSome by decide) stop_fan stop_levels stop_clients (ex_layered tables) ex_threads
    h1 h3 h4 g1 g2⟩

/-! ### A test with counted loops does a finite amount of work under every schedule (C269) -/

/-- If each loop has a maximal number of iterations, under every schedule there is a moment from which on nothing
is done any more, whenever and wherever traffic is cancelled, if it is. -/
theorem C269_rest {e : Env} {w : Test} {fan level : Str → Nat} {s : State} {f : Nat → State}
    (hs : SoundTest e w) (hp : CancelTest w.cfg) (hn : CountedLoops w.cfg)
    (hk : ∀ a ∈ w.cfg.actions, a.kind = .none → a.responsePayloadOverride.isSome)
    (hf : FanOuts w.cfg fan) (hl : NameLevels w.cfg level) (hc : ClientsDeclared w.cfg)
    (h : Reach w s) (hsch : Schedule w s f) :
    ∃ N, ∀ n, N ≤ n → EquallyDone (f N).base (f n).base :=
  rests_all ⟨hs, hp, hk, hf, hl, hc⟩ hn (by rw [hsch.start]; exact h) fun n => .inr (hsch.step n)

/-- A test without open loops. -/
theorem cancel_of_loop {cfg : Config} (hp : LoopTest cfg)
    (ho : ∀ a ∈ cfg.actions, ∀ it, a.iterations = some it → it.openLoopIntervalNs = none) : CancelTest cfg := by
  refine ⟨hp.activities, ho, fun a ha it hi => ?_⟩
  obtain ⟨h1, h2⟩ := hp.limited a ha it hi
  refine ⟨h1, ?_⟩
  cases hc : it.maxIterationCount with
  | none => rw [hc] at h2; exact h2.2
  | some n => rw [hc] at h2; exact h2

/-- If moreover nobody cancels the traffic, and the schedule does not stop while something could be brought about,
then from some moment on all lists are over and all RPCs are back. -/
theorem C269_end {e : Env} {w : Test} {fan level layer : Str → Nat} {s : Loops.State} {f : Nat → Loops.State}
    (hs : SoundTest e w) (hp : LoopTest w.cfg) (hn : CountedLoops w.cfg)
    (ho : ∀ a ∈ w.cfg.actions, ∀ it, a.iterations = some it → it.openLoopIntervalNs = none)
    (hk : ∀ a ∈ w.cfg.actions, a.kind = .none → a.responsePayloadOverride.isSome)
    (hf : FanOuts w.cfg fan) (hl : NameLevels w.cfg level) (hc : ClientsDeclared w.cfg)
    (hy : LayeredServices w layer) (ht : ∀ g, w.threads g ≠ some 0)
    (h : Loops.Reach w s) (hsch : LoopSchedule w s f) (hko : KeepsOn w f) :
    ∃ N, ∀ n, N ≤ n → LoopsOver (f n) := by
  have hct := cancel_of_loop hp ho
  have hR : ∀ n, Loops.Reach w (f n) := by
    intro n
    induction n with
    | zero => rw [hsch.start]; exact h
    | succ n ih =>
      rcases hsch.step n with g | g
      · rw [g]; exact ih
      · exact .step ih g
  obtain ⟨N, hN⟩ := rests_all (f := fun n => { base := f n }) ⟨hs, hct, hk, hf, hl, hc⟩ hn
    (reach_uncancelled hs hp hf (hR 0)) fun n => by
      rcases hsch.step n with g | g
      · left
        show ({ base := f (n + 1) } : State) = { base := f n }
        rw [g]
      · exact .inr (step_uncancelled hs hp hf (hR n) g)
  refine ⟨N, fun n hle => over_done (hN n hle) ?_⟩
  apply Classical.byContradiction
  intro hov
  obtain ⟨m, h1, h2⟩ := hko N fun m hm => by
    obtain ⟨-, s', g1, g2⟩ := C263_counted hs hp hn hk hf hl hc hy ht (hR m)
    exact ⟨s', g1, fun g => hov (over_done (done_symm (done_trans (hN m hm) g)) g2)⟩
  exact h2 (done_trans (done_symm (hN m h1)) (hN (m + 1) (by omega)))

theorem ex_closed : ∀ a ∈ exConfig.actions, ∀ it, a.iterations = some it → it.openLoopIntervalNs = none := by
  intro a ha it hi
  simp only [exConfig, List.mem_cons, List.not_mem_nil, or_false] at ha
  rcases ha with rfl | rfl | rfl | rfl <;> cases hi <;> rfl

/-- The example comes to rest under a schedule that does something whenever it can, with cancellation or not. -/
example : ∃ tables s f, SoundTest sampleEnv ⟨exConfig, tables, exThreads⟩ ∧ Reach ⟨exConfig, tables, exThreads⟩ s ∧
    Schedule ⟨exConfig, tables, exThreads⟩ s f ∧ NotIdle ⟨exConfig, tables, exThreads⟩ f ∧
    ∃ N, ∀ n, N ≤ n → EquallyDone (f N).base (f n).base := by
  obtain ⟨tables, hs⟩ := ex_sound
  obtain ⟨s0, h0⟩ := start_exists hs
  obtain ⟨g1, g2⟩ := busy_schedule ⟨exConfig, tables, exThreads⟩ { base := s0 }
  exact ⟨tables, _, _, hs, .start h0, g1, g2, C269_rest hs (cancel_of_loop (loop_of_time (time_of_plain ex_plain)
    ex_loops) ex_closed) ex_counted (fun a ha => (ex_plain.kinds a ha).2) ex_fan ex_levels ex_clients (.start h0) g1⟩

/-- There is a schedule of the example that keeps on, and under each such schedule exactly 54 RPCs named `save` are
back in the end. -/
example : ∃ tables s, SoundTest sampleEnv ⟨exConfig, tables, exThreads⟩ ∧
    Loops.Reach ⟨exConfig, tables, exThreads⟩ s ∧
    (∃ f, LoopSchedule ⟨exConfig, tables, exThreads⟩ s f ∧ KeepsOn ⟨exConfig, tables, exThreads⟩ f) ∧
    ∀ f, LoopSchedule ⟨exConfig, tables, exThreads⟩ s f → KeepsOn ⟨exConfig, tables, exThreads⟩ f →
      ∃ N, ∀ n, N ≤ n → LoopsOver (f n) ∧ rpcsNamed exConfig (f n) "save".toList = 54 := by
  obtain ⟨tables, hs⟩ := ex_sound
  obtain ⟨s0, h0⟩ := start_exists hs
  have hp := loop_of_time (time_of_plain ex_plain) ex_loops
  have hk := fun a ha => (ex_plain.kinds a ha).2
  refine ⟨tables, s0, hs, .start h0, schedule_exists ⟨hs, cancel_of_loop hp ex_closed, hk, ex_fan, ex_levels,
    ex_clients⟩ hp ex_counted (.start h0), fun f h1 h2 => ?_⟩
  obtain ⟨N, hN⟩ := C269_end hs hp ex_counted ex_closed hk ex_fan ex_levels ex_clients (ex_layered tables)
    ex_threads (.start h0) h1 h2
  refine ⟨N, fun n hn => ⟨hN n hn, ?_⟩⟩
  have hr : Loops.Reach ⟨exConfig, tables, exThreads⟩ (f n) := by
    clear hn
    induction n with
    | zero => rw [h1.start]; exact .start h0
    | succ n ih =>
      rcases h1.step n with g | g
      · rw [g]; exact ih
      · exact .step ih g
  exact (C259_exact hs ex_plain ex_loops ex_fan ex_save (ex_predicts _ ex_save) hr (hN n hn)).trans ex_saves

end Distbench.LoopsCancel
