import Verif.Lemmas.LoopsSim
import Verif.Lemmas.WholeTime

/-! The traffic of Model/Loops.lean as seen from outside is that of Model/WholeTime.lean: the steps of the
threads of lists. -/

namespace Distbench.Loops
open Tables Services Whole Spec

/-- The state `s` looks like `t`, to which the steps `ops` lead. -/
structure Sim (w : Test) (s : State) (ops : List Traffic.TOp) (t : Traffic.TState) : Prop where
  runs : TRuns w ops t
  base : t.base = abs s
  late : ∀ j a, t.late j a = true → ∃ k, s.jobs[j]? = some k ∧ (k.main.acts a).called = true
  count : ∀ j a, timedIterations ops j a = allStarts (logAt s j a)
  inv : Inv w s

variable {w : Test} {s s' : State} {j : Nat} {k k' : Job} {ext : List Job} {ops : List Traffic.TOp}
  {t : Traffic.TState}

/-- The state `s'` looks like one in the same state of the traffic, or in a later one. -/
def Next (w : Test) (s : State) (ops : List Traffic.TOp) (s' : State) : Prop :=
  ∃ ops' t', Sim w s' ops' t' ∧
    ((ops' = ops ∧ abs s' = abs s) ∨ timedSteps ops < timedSteps ops')

theorem Next.sim (h : Next w s ops s') : ∃ ops t, Sim w s' ops t := by
  obtain ⟨ops', t', h, -⟩ := h
  exact ⟨ops', t', h⟩

theorem more_steps (op : Traffic.TOp) (h : ∀ j a, op ≠ .late j a) : timedSteps ops < timedSteps (ops ++ [op]) := by
  unfold timedSteps
  rw [List.countP_append]
  cases op with
  | late j a => exact absurd rfl (h j a)
  | _ => simp

theorem sim_stutter (h : Sim w s ops t) (hb : abs s' = abs s)
    (hlate : ∀ (i a : Nat) x, s.jobs[i]? = some x → (x.main.acts a).called = true →
      ∃ y, s'.jobs[i]? = some y ∧ (y.main.acts a).called = true)
    (hlog : ∀ i a, allStarts (logAt s' i a) = allStarts (logAt s i a)) (hI : Inv w s') :
    Next w s ops s' := by
  refine ⟨ops, t, ⟨h.runs, by rw [hb]; exact h.base, ?_, ?_, hI⟩, .inl ⟨rfl, hb⟩⟩
  · intro i a hl
    obtain ⟨x, h1, h2⟩ := h.late i a hl
    exact hlate i a x h1 h2
  · intro i a
    rw [hlog, h.count]

/-- The step is not the beginning of an iteration. -/
def notIterate : Traffic.Op → Prop
  | .iterate _ _ _ => False
  | _ => True

theorem sim_base {op : Traffic.Op} {g : Nat} (h : Sim w s ops t) (hop : notIterate op)
    (he : engineOf (abs s) op = g)
    (hst : Traffic.step (engineConfig w (fun _ => 0) g) (abs s) op = some (abs s'))
    (hlate : ∀ (i a : Nat) x, s.jobs[i]? = some x → (x.main.acts a).called = true →
      ∃ y, s'.jobs[i]? = some y ∧ (y.main.acts a).called = true)
    (hlog : ∀ i a, allStarts (logAt s' i a) = allStarts (logAt s i a)) (hI : Inv w s') :
    Next w s ops s' := by
  refine ⟨ops ++ [.base op], { t with base := abs s' }, ⟨?_, rfl, ?_, ?_, hI⟩,
    .inr (more_steps _ fun _ _ hh => by cases hh)⟩
  · refine .step (.base op) h.runs ⟨?_, ?_⟩
    · cases op <;> first | trivial | exact absurd hop id
    · have hst' : Traffic.step (engineConfig w (fun _ => fanOf op) (engineOf (abs s) op)) (abs s) op =
          some (abs s') := by
        rw [he]
        cases op <;> first | exact hst | exact absurd hop id
      rw [Traffic.tstep, if_pos, h.base, hst']
      · rfl
      · cases op <;> first | rfl | exact absurd hop id
  · intro i a hl
    obtain ⟨x, h1, h2⟩ := h.late i a hl
    exact hlate i a x h1 h2
  · intro i a
    rw [hlog, ← h.count]
    unfold timedIterations
    rw [List.countP_append]
    cases op <;> first | rfl | exact absurd hop id

/-! ### Which action sends the response -/

theorem early_none {n : Nat} {acts : Nat → ActionList.Act} (h : ∀ i, (acts i).sender = false) :
    (List.range n).find? (fun i => (acts i).sender) = none := by
  rw [List.find?_eq_none]
  intro i _
  rw [h i]
  simp

theorem early_some {n a : Nat} {acts : Nat → ActionList.Act} (ha : (acts a).sender = true) (hn : a < n)
    (hu : ∀ i, (acts i).sender = true → i = a) : (List.range n).find? (fun i => (acts i).sender) = some a := by
  cases hf : (List.range n).find? (fun i => (acts i).sender) with
  | none =>
    rw [List.find?_eq_none] at hf
    exact absurd ha (hf a (List.mem_range.2 hn))
  | some b =>
    rw [hu b (by simpa using List.find?_some hf)]

/-- What is known about the sender while the list is not over. -/
theorem early_known (hk : JobOk w k) (hd : k.main.phase ≠ .done) :
    (k.main.sentEarly = false ↔ earlyOf k = none) ∧
    ∀ a, (k.main.acts a).sender = true ↔ earlyOf k = some a := by
  obtain ⟨hC, hS⟩ := ActionList.inv_core hk.main hd
  have key : ∀ a, (k.main.acts a).sender = true → earlyOf k = some a := by
    intro a ha
    exact early_some ha (hC.started_lt a (hC.sender_started a ha).1) fun i hi => hC.sender_unique i a hi ha
  refine ⟨⟨?_, ?_⟩, fun a => ⟨key a, ?_⟩⟩
  · intro h
    refine early_none fun i => ?_
    cases hi : (k.main.acts i).sender with
    | false => rfl
    | true => rw [(hC.sender_started i hi).2.1] at h; cases h
  · intro h
    cases hse : k.main.sentEarly with
    | false => rfl
    | true =>
      obtain ⟨i, hi⟩ := hC.sent_sender hse
      rw [key i hi] at h
      cases h
  · intro h
    have := List.find?_some (p := fun i => (k.main.acts i).sender) h
    simpa using this

/-- A response that is sent answers an RPC that is being handled. -/
theorem respond_calls {cfg : Traffic.Config} (hT : Traffic.Inv cfg (fun _ => False) (abs s))
    (hj : s.jobs[j]? = some k) (hu : Traffic.Unanswered (absJob s k)) :
    ∀ r ∈ Traffic.answer s.calls k.parent, ∃ r0 ∈ s.calls, r.job = r0.job ∧ r.action = r0.action ∧
      r.iter = r0.iter ∧ (r0.stage = .completed → r.stage = .completed) := by
  intro r hr
  obtain ⟨c, hc⟩ := List.getElem?_of_mem hr
  obtain ⟨r0, h0, -, -, e1, e2, e3, e4⟩ := Traffic.answer_get hc
  refine ⟨r0, List.mem_of_getElem? h0, e1, e2, e3, ?_⟩
  intro hcomp
  by_cases hp : k.parent = .call c
  · obtain ⟨R, hR, -, -, -, -, -, hiff⟩ := hT.parent j (absJob s k) c (abs_get hj) (by
      show absParent s k.parent = _
      rw [hp]
      rfl)
    have : (abs s).calls[c]? = some (absCall s r0) := by
      show (s.calls.map _)[c]? = _
      rw [List.getElem?_map, h0]
      rfl
    rw [this] at hR
    cases hR
    have := hiff.2 hu
    rw [show (absCall s r0).stage = r0.stage from rfl, hcomp] at this
    cases this
  · rw [e4, if_neg hp]
    exact hcomp

theorem same_calls : ∀ r ∈ s.calls, ∃ r0 ∈ s.calls, r.job = r0.job ∧ r.action = r0.action ∧
    r.iter = r0.iter ∧ (r0.stage = .completed → r.stage = .completed) :=
  fun r hr => ⟨r, hr, rfl, rfl, rfl, id⟩

/-! ### The thread of a list -/

theorem answer_abs (hu : Upd s s' j k k' ext) (hI : Inv w s) (p : Traffic.Parent) :
    (Traffic.answer s.calls p).map (absCall s') = Traffic.answer (abs s).calls (absParent s p) := by
  rw [answer_map s.calls p s s', hu.abs_calls hI]
  rfl

/-- The change when only the thread of a list moves. -/
theorem upd_main {m : ActionList.State} (hj : s.jobs[j]? = some k) (calls : List Traffic.Call) :
    Upd s { jobs := s.jobs.set j { k with main := m }, calls := calls } j k { k with main := m } [] :=
  ⟨hj, (List.append_nil _).symm, rfl, rfl, rfl, rfl, (fun x hx => absurd hx List.not_mem_nil), fun _ _ _ => rfl⟩

theorem late_main {m : ActionList.State} {calls : List Traffic.Call} (hj : s.jobs[j]? = some k)
    (hm : ∀ a, (k.main.acts a).called = true → (m.acts a).called = true) :
    ∀ (i a : Nat) x, s.jobs[i]? = some x → (x.main.acts a).called = true →
      ∃ y, (State.mk (s.jobs.set j { k with main := m }) calls).jobs[i]? = some y ∧
        (y.main.acts a).called = true := by
  intro i a x hi hx
  by_cases hij : i = j
  · subst hij
    rw [hj] at hi
    cases hi
    exact ⟨_, (upd_main (m := m) hj calls).get, hm a hx⟩
  · exact ⟨x, (upd_main (m := m) hj calls).other hi hij, hx⟩

theorem log_main {m : ActionList.State} {calls : List Traffic.Call} (hj : s.jobs[j]? = some k) (i a : Nat) :
    logAt (State.mk (s.jobs.set j { k with main := m }) calls) i a = logAt s i a := by
  have hu := upd_main (m := m) hj calls
  by_cases hi : i = j
  · subst hi
    rw [hu.logAt_same, hu.logAt_old]
    rfl
  · exact hu.logAt_other hi a

theorem absAct_main {m : ActionList.State} {a : Nat} (h1 : (m.acts a).started = (k.main.acts a).started)
    (h2 : (m.acts a).skipped = (k.main.acts a).skipped) (h3 : (m.acts a).called = (k.main.acts a).called) :
    absAct { k with main := m } a = absAct k a := by
  unfold absAct
  dsimp only
  rw [h1, h2, h3]
  rfl

theorem jobOk_main {e : Env} {m : ActionList.State} (hs : SoundTest e w) (hp : LoopTest w.cfg) (hk : JobOk w k)
    (hm : ActionList.MainStep (k.ctx w) k.main m) (hlive : m.canceled = false)
    (hc : ∀ a, (k.main.acts a).started = true → m.acts a = k.main.acts a ∨
      (m.acts a).started = true ∧ (m.acts a).skipped = (k.main.acts a).skipped ∧
      (m.acts a).stuck = (k.main.acts a).stuck ∧ (m.acts a).called = (k.main.acts a).called)
    (hn : ∀ a, (m.acts a).called = true → (m.acts a).skipped = true ∨
      (k.main.acts a).called = true ∧ (m.acts a).skipped = (k.main.acts a).skipped) :
    JobOk w { k with main := m } := by
  refine ⟨hk.entry, ?_, hlive, ?_, ?_⟩
  rotate_right
  · intro a ha
    rcases hn a ha with h1 | ⟨h1, h2⟩
    · exact .inl h1
    · show (m.acts a).skipped = true ∨ _
      rw [h2]
      exact hk.called a h1
  · exact ActionList.inv_main (sane hs hk.entry) hk.main hm
  · intro a u hu
    obtain ⟨x, h1, h2, h3, h4, h5, h6⟩ := hk.under a u hu
    refine ⟨x, h1, h2, ?_⟩
    rcases hc a h3 with hc | ⟨c1, c2, c3, c4⟩
    · show (m.acts a).started = true ∧ (m.acts a).skipped = false ∧ (m.acts a).stuck = false ∧
        ((m.acts a).called = true ↔ _)
      rw [hc]
      exact ⟨h3, h4, h5, h6⟩
    · show (m.acts a).started = true ∧ (m.acts a).skipped = false ∧ (m.acts a).stuck = false ∧
        ((m.acts a).called = true ↔ _)
      rw [c2, c3, c4]
      exact ⟨c1, h4, h5, h6⟩

theorem respond_none {m m' : ActionList.State} {p : Traffic.Parent} {calls : List Traffic.Call}
    (h : responses m'.log = responses m.log) : respond m m' p calls = calls := by
  unfold respond
  rw [if_neg (by omega)]

theorem respond_if {m m' : ActionList.State} {p : Traffic.Parent} {calls : List Traffic.Call} {b : Bool}
    (h : responses m'.log = responses m.log + if b then 1 else 0) :
    respond m m' p calls = if b = true then Traffic.answer calls p else calls := by
  unfold respond
  cases b
  · rw [if_neg (by simp at h; omega), if_neg (by simp)]
  · rw [if_pos (by simp at h; omega), if_pos rfl]

theorem main_same {e : Env} {m : ActionList.State} (hs : SoundTest e w) (hp : LoopTest w.cfg) (h : Sim w s ops t)
    (hj : s.jobs[j]? = some k) (hm : ActionList.MainStep (k.ctx w) k.main m) (hlive : m.canceled = false)
    (hsame : ActionList.Same k.main m) :
    Next w s ops { jobs := s.jobs.set j { k with main := m }, calls := respond k.main m k.parent s.calls } := by
  rw [respond_none hsame.log]
  have hk := h.inv.jobs j k hj
  have hu := upd_main (m := m) hj s.calls
  refine sim_stutter h ?_ (late_main hj fun a ha => by rw [(hsame.acts a).2.2.1]; exact ha)
    (fun i a => by rw [log_main hj]) ?_
  · unfold abs
    congr 1
    · rw [hu.abs_jobs h.inv, List.map_nil, List.append_nil]
      rw [acts_same (k := k) fun b => absAct_main (hsame.acts b).1 (hsame.acts b).2.1 (hsame.acts b).2.2.1]
      have h1 : earlyOf { k with main := m } = earlyOf k := by
        unfold earlyOf
        congr 1
        funext i
        exact (hsame.acts i).2.2.2.1
      have h2 : decide (m.phase = .done) = decide (k.main.phase = .done) := decide_eq_decide.2 hsame.done
      rw [h1]
      dsimp only
      rw [h2]
      exact set_same (abs_get hj)
    · exact hu.abs_calls h.inv
  · refine hu.inv_same h.inv (fun _ => rfl) ?_ (fun x hx => absurd hx List.not_mem_nil) (fun hd => hsame.done.2 hd) same_calls
      (fun x hx => absurd hx List.not_mem_nil)
    refine jobOk_main hs hp hk hm hlive (fun a ha => .inr ⟨by rw [(hsame.acts a).1]; exact ha,
      (hsame.acts a).2.1, (hsame.acts a).2.2.2.2, (hsame.acts a).2.2.1⟩) ?_
    intro a ha
    rw [(hsame.acts a).2.2.1] at ha
    exact .inr ⟨ha, (hsame.acts a).2.1⟩

theorem engineOf_job {op : Traffic.Op} (hj : s.jobs[j]? = some k)
    (hop : ∃ a, op = .start j a ∨ op = .skip j a ∨ op = .finish j a ∨ op = .endJob j ∨
      ∃ targets, op = .iterate j a targets) : engineOf (abs s) op = k.engine := by
  obtain ⟨a, rfl | rfl | rfl | rfl | ⟨targets, rfl⟩⟩ := hop <;>
    · unfold engineOf
      dsimp only
      rw [abs_get hj]
      rfl

theorem deps_eq (k : Job) {i : Nat} {x : ActionEntry} (hx : k.entry.listActions[i]? = some x) (fan : Nat → Nat) :
    (toAction fan x).deps = (k.ctx w).deps i := by
  have hx : (k.ctx w).entry.listActions[i]? = some x := hx
  unfold ActionList.Ctx.deps
  rw [hx]
  rfl

/-- The action is waiting and its dependencies have ended. -/
theorem startable_view {i : Nat} {x : ActionEntry} {A : ActionList.Act} {m : ActionList.State} {fan : Nat → Nat}
    (hk : JobOk w k) (hj : s.jobs[j]? = some k) (hb : ActionList.Begun (k.ctx w) k.main m i x A) :
    Traffic.startable (engineConfig w fan k.engine) (abs s) j i = some (absJob s k, toAction fan x) ∧
    (Traffic.dropped (absJob s k) (toAction fan x) = true ↔
      ∃ d ∈ (k.ctx w).deps i, (k.main.acts d).skipped = true) := by
  have hx : k.entry.listActions[i]? = some x := hb.entry
  have hget : ∀ d ∈ (k.ctx w).deps i, (absJob s k).acts[d]? = some (absAct k d) := by
    intro d hd
    have hlt : d < k.entry.listActions.length := (hb.deps d hd).1
    exact acts_get (List.getElem?_eq_getElem hlt) s
  constructor
  · unfold Traffic.startable
    rw [abs_get hj]
    dsimp only
    rw [show (absJob s k).list = k.list from rfl, engine_entries hk.entry, List.getElem?_map, hx, Option.map_some]
    dsimp only
    rw [if_pos]
    refine ⟨?_, ?_, ?_⟩
    · rw [acts_get hx]
      unfold absAct
      rw [if_pos hb.fresh]
    · show decide _ = false
      simp [hb.open_.1]
    · unfold Traffic.ready
      rw [deps_eq (w := w) k hx, List.all_eq_true]
      intro d hd
      rw [hget d hd]
      dsimp only
      obtain ⟨-, h1, h2⟩ := hb.deps d hd
      unfold absAct
      rw [if_neg (by simp [h1])]
      split
      · rfl
      · rfl
  · unfold Traffic.dropped
    rw [deps_eq (w := w) k hx, List.any_eq_true]
    constructor
    · rintro ⟨d, hd, h1⟩
      refine ⟨d, hd, ?_⟩
      rw [hget d hd] at h1
      simp only [decide_eq_true_eq, Option.some.injEq] at h1
      unfold absAct at h1
      split at h1
      · cases h1
      · split at h1
        · assumption
        · split at h1 <;> cases h1
    · rintro ⟨d, hd, h1⟩
      refine ⟨d, hd, ?_⟩
      rw [hget d hd]
      simp only [decide_eq_true_eq, Option.some.injEq]
      unfold absAct
      rw [if_neg (by simp [(hb.deps d hd).2.1]), if_pos h1]

/-- Which action sends the response after this one. -/
theorem designate_view {i : Nat} {x : ActionEntry} {A : ActionList.Act} {m : ActionList.State} {fan : Nat → Nat}
    (hk : JobOk w k) (hb : ActionList.Begun (k.ctx w) k.main m i x A) :
    earlyOf { k with main := m } =
      Traffic.designate (engineConfig w fan k.engine) (absJob s k) (toAction fan x) i ∧
    (A.sender = true ↔ Traffic.designate (engineConfig w fan k.engine) (absJob s k) (toAction fan x) i = some i) := by
  have hx : k.entry.listActions[i]? = some x := hb.entry
  have hlt : i < k.entry.listActions.length := (List.getElem?_eq_some_iff.1 hx).1
  obtain ⟨hC, hS⟩ := ActionList.inv_core hk.main hb.open_.1
  obtain ⟨hn, hsome⟩ := early_known hk hb.open_.1
  have hnot : (k.main.acts i).sender = false := by
    cases hi : (k.main.acts i).sender with
    | false => rfl
    | true =>
      have h1 := hb.fresh
      rw [(hC.sender_started i hi).1] at h1
      cases h1
  have hlen : ((engineConfig w fan k.engine).actions k.list).length = k.entry.listActions.length := by
    rw [engine_entries hk.entry, List.length_map]
  have hsz : (k.ctx w).size = k.entry.listActions.length := rfl
  have hearly : (absJob s k).early = earlyOf k := rfl
  have hsend := hb.sender
  unfold Traffic.designate
  rw [show (absJob s k).list = k.list from rfl, hlen, hearly,
    show (toAction fan x).responds = x.proto.sendResponseWhenDone from rfl]
  have hacts : ∀ b, (m.acts b).sender = if b = i then A.sender else (k.main.acts b).sender := by
    intro b
    rw [hb.acts b]
    split <;> rfl
  cases hA : A.sender with
  | true =>
    rw [hA] at hsend
    have hsend := hsend.symm
    simp only [Bool.and_eq_true, Bool.not_eq_true', Bool.or_eq_true, beq_iff_eq, hsz] at hsend
    rw [if_pos ⟨hn.1 hsend.1, hsend.2⟩]
    refine ⟨?_, by simp⟩
    refine early_some (acts := m.acts) ?_ hlt ?_
    · rw [hacts, if_pos rfl, hA]
    · intro b hb'
      apply Classical.byContradiction
      intro hne
      rw [hacts, if_neg hne] at hb'
      rw [(hC.sender_started b hb').2.1] at hsend
      exact absurd hsend.1 (by simp)
  | false =>
    rw [hA] at hsend
    have hsend := hsend.symm
    rw [if_neg]
    · refine ⟨?_, ?_⟩
      · unfold earlyOf
        congr 1
        funext b
        show (m.acts b).sender = _
        rw [hacts]
        split
        · rename_i hbi
          rw [hbi, hA, hnot]
        · rfl
      · constructor
        · intro h; cases h
        · intro h
          rw [(hsome i).2 h] at hnot
          cases hnot
    · rintro ⟨h1, h2⟩
      rw [hn.2 h1] at hsend
      simp only [Bool.not_false, Bool.true_and, Bool.or_eq_false_iff, beq_eq_false_iff_ne, hsz] at hsend
      rcases h2 with h2 | h2
      · exact hsend.1 h2
      · rw [hsend.2] at h2; cases h2

/-- The change of the view when an action begins or is skipped. -/
theorem begun_abs {i : Nat} {x : ActionEntry} {A : ActionList.Act} {m : ActionList.State}
    {calls : List Traffic.Call} (hI : Inv w s) (hj : s.jobs[j]? = some k)
    (hb : ActionList.Begun (k.ctx w) k.main m i x A) :
    (abs { jobs := s.jobs.set j { k with main := m }, calls := calls }).jobs =
      (abs s).jobs.set j { absJob s k with
        acts := (absJob s k).acts.set i (absAct { k with main := m } i)
        early := earlyOf { k with main := m } } := by
  have hu := upd_main (m := m) hj calls
  show List.map _ _ = _
  rw [hu.abs_jobs hI, List.map_nil, List.append_nil]
  rw [acts_set (k := k) (a := i) (n := k.entry.listActions.length) fun b hb' => by
    have : m.acts b = k.main.acts b := by rw [hb.acts b, if_neg hb']
    exact absAct_main (by rw [this]) (by rw [this]) (by rw [this])]
  have h2 : decide (m.phase = .done) = (absJob s k).over := by
    show _ = decide _
    simp [hb.open_.1, hb.open_.2]
  dsimp only
  rw [h2]
  rfl

theorem begun_jobOk {e : Env} {i : Nat} {x : ActionEntry} {A : ActionList.Act} {m : ActionList.State}
    (hs : SoundTest e w) (hp : LoopTest w.cfg) (hk : JobOk w k)
    (hm : ActionList.MainStep (k.ctx w) k.main m) (hlive : m.canceled = false)
    (hb : ActionList.Begun (k.ctx w) k.main m i x A) : JobOk w { k with main := m } := by
  refine jobOk_main hs hp hk hm hlive (fun a ha => .inl ?_) ?_
  · rw [hb.acts a, if_neg]
    rintro rfl
    rw [hb.fresh] at ha
    cases ha
  · intro a ha
    rw [hb.acts a] at ha ⊢
    split
    · rename_i hai
      rw [if_pos hai] at ha
      rcases hb.how with ⟨-, a2, -⟩ | ⟨a1, -⟩
      · rw [a2] at ha
        cases ha
      · exact .inl a1
    · rename_i hai
      rw [if_neg hai] at ha
      exact .inr ⟨ha, rfl⟩

theorem begun_late {i : Nat} {x : ActionEntry} {A : ActionList.Act} {m : ActionList.State} (hk : JobOk w k)
    (hb : ActionList.Begun (k.ctx w) k.main m i x A) (a : Nat) (ha : (k.main.acts a).called = true) :
    (m.acts a).called = true := by
  obtain ⟨hC, -⟩ := ActionList.inv_core hk.main hb.open_.1
  rw [hb.acts a, if_neg]
  · exact ha
  · rintro rfl
    have h1 := hb.fresh
    rw [hC.called_started _ ha] at h1
    cases h1

theorem main_begun {e : Env} {i : Nat} {x : ActionEntry} {A : ActionList.Act} {m : ActionList.State}
    {cfg : Traffic.Config} (hs : SoundTest e w) (hp : LoopTest w.cfg) (h : Sim w s ops t)
    (hT : Traffic.Inv cfg (fun _ => False) (abs s))
    (hj : s.jobs[j]? = some k) (hm : ActionList.MainStep (k.ctx w) k.main m) (hlive : m.canceled = false)
    (hb : ActionList.Begun (k.ctx w) k.main m i x A) :
    Next w s ops { jobs := s.jobs.set j { k with main := m }, calls := respond k.main m k.parent s.calls } := by
  have hk := h.inv.jobs j k hj
  have hx : k.entry.listActions[i]? = some x := hb.entry
  have hok := begun_jobOk hs hp hk hm hlive hb
  obtain ⟨hst, hdrop⟩ := startable_view (fan := fun _ => 0) hk hj hb
  obtain ⟨hdes, hsend⟩ := designate_view (s := s) (fan := fun _ => 0) hk hb
  have hmi : m.acts i = A := by rw [hb.acts i, if_pos rfl]
  have hopen : k.main.phase = .done → m.phase = .done := fun hd => absurd hd hb.open_.1
  rcases hb.how with ⟨a1, a2, a3, a4⟩ | ⟨a1, a2, a3, a4⟩
  · -- started
    rw [respond_none a3]
    have hu := upd_main (m := m) hj s.calls
    refine sim_base (op := .start j i) h trivial (engineOf_job hj ⟨i, .inl rfl⟩) ?_ (late_main hj (begun_late hk hb))
      (fun i a => by rw [log_main hj]) ?_
    · unfold Traffic.step
      dsimp only
      rw [hst]
      dsimp only
      rw [if_neg]
      · congr 1
        show _ = abs _
        have hact : absAct { k with main := m } i = .running (toAction (fun _ => 0) x).iters := by
          have hnone : logOf { k with main := m } i = [] := by
            show logOf k i = []
            unfold logOf
            cases hun : k.under i with
            | none => rfl
            | some u =>
              obtain ⟨-, -, -, g3, -⟩ := hk.under i u hun
              rw [hb.fresh] at g3
              cases g3
          unfold absAct
          dsimp only
          rw [hmi, if_neg (by simp [hb.started]), if_neg (by simp [a1]), if_neg (by simp [a2]), hnone]
          show Traffic.Act.running (itersOf k i - 0) = _
          unfold itersOf
          rw [hx]
          rfl
        show _ = Traffic.State.mk _ _
        congr 1
        · have := begun_abs (calls := s.calls) h.inv hj hb
          rw [hact, hdes] at this
          exact this.symm
        · exact (hu.abs_calls h.inv).symm
      · intro hd
        obtain ⟨d, h1, h2⟩ := hdrop.1 hd
        rw [a4 d h1] at h2
        cases h2
    · exact hu.inv_same h.inv (fun _ => rfl) hok (fun x hx => absurd hx List.not_mem_nil) hopen same_calls
        (fun x hx => absurd hx List.not_mem_nil)
  · -- skipped
    rw [respond_if a3]
    have hu := upd_main (m := m) hj (if A.sender = true then Traffic.answer s.calls k.parent else s.calls)
    refine sim_base (op := .skip j i) h trivial (engineOf_job hj ⟨i, .inr (.inl rfl)⟩) ?_ (late_main hj (begun_late hk hb))
      (fun i a => by rw [log_main hj]) ?_
    · unfold Traffic.step
      dsimp only
      rw [hst]
      dsimp only
      rw [if_pos]
      · congr 1
        have hact : absAct { k with main := m } i = .skipped := by
          unfold absAct
          dsimp only
          rw [hmi, if_neg (by simp [hb.started]), if_pos (by simp [a1])]
        show _ = Traffic.State.mk _ _
        congr 1
        · have := begun_abs (calls := if A.sender = true then Traffic.answer s.calls k.parent else s.calls)
            h.inv hj hb
          rw [hact, hdes] at this
          exact this.symm
        · dsimp only
          by_cases hA : A.sender = true
          · rw [if_pos (hsend.1 hA)]
            rw [if_pos hA] at hu ⊢
            exact (answer_abs hu h.inv _).symm
          · rw [if_neg (fun hh => hA (hsend.2 hh))]
            rw [if_neg hA] at hu ⊢
            exact (hu.abs_calls h.inv).symm
      · rcases a4 with a4 | a4
        · exact .inl (hdrop.2 a4)
        · right
          show (!x.proto.predicates.isEmpty) = true
          cases hpr : x.proto.predicates with
          | nil => exact absurd hpr a4
          | cons _ _ => rfl
    · refine hu.inv_same h.inv (fun _ => rfl) hok (fun x hx => absurd hx List.not_mem_nil) hopen ?_
        (fun x hx => absurd hx List.not_mem_nil)
      by_cases hA : A.sender = true
      · dsimp only
        rw [if_pos hA]
        refine respond_calls hT hj ⟨by show decide _ = false; simp [hb.open_.1], ?_⟩
        intro a y ha hy
        -- the sender is new, so there was none before
        have hsend' := hb.sender
        rw [hA] at hsend'
        have hsend' := hsend'.symm
        simp only [Bool.and_eq_true, Bool.not_eq_true'] at hsend'
        have := (early_known hk hb.open_.1).1.1 hsend'.1
        rw [show (absJob s k).early = earlyOf k from rfl, this] at ha
        cases ha
      · dsimp only
        rw [if_neg hA]
        exact same_calls

theorem main_ended {e : Env} {m : ActionList.State}
    {cfg : Traffic.Config} (hs : SoundTest e w) (hp : LoopTest w.cfg) (h : Sim w s ops t)
    (hT : Traffic.Inv cfg (fun _ => False) (abs s))
    (hj : s.jobs[j]? = some k) (hm : ActionList.MainStep (k.ctx w) k.main m) (hlive : m.canceled = false)
    (hb : ActionList.Ended (k.ctx w) k.main m) :
    Next w s ops { jobs := s.jobs.set j { k with main := m }, calls := respond k.main m k.parent s.calls } := by
  have hk := h.inv.jobs j k hj
  have hnd : k.main.phase ≠ .done := by rw [hb.phase]; simp
  have hearly := (early_known hk hnd).1
  have hlog : responses m.log = responses k.main.log + if !k.main.sentEarly then 1 else 0 := by
    rw [hb.log]
    cases k.main.sentEarly <;> rfl
  rw [respond_if hlog]
  have hu := upd_main (m := m) hj (if (!k.main.sentEarly) = true then Traffic.answer s.calls k.parent else s.calls)
  refine sim_base (op := .endJob j) h trivial (engineOf_job hj ⟨0, .inr (.inr (.inr (.inl rfl)))⟩) ?_ (late_main hj fun a ha => by rw [hb.acts]; exact ha)
    (fun i a => by rw [log_main hj]) ?_
  · unfold Traffic.step
    dsimp only
    rw [abs_get hj]
    dsimp only
    rw [if_pos]
    · congr 1
      show _ = Traffic.State.mk _ _
      congr 1
      · rw [hu.abs_jobs h.inv, List.map_nil, List.append_nil]
        rw [acts_same (k := k) fun b => absAct_main (by rw [hb.acts]) (by rw [hb.acts]) (by rw [hb.acts])]
        have h1 : earlyOf { k with main := m } = earlyOf k := by
          unfold earlyOf
          congr 1
          funext i
          show (m.acts i).sender = _
          rw [hb.acts]
        rw [h1]
        have h2 : decide (m.phase = .done) = true := by simp [hb.done]
        dsimp only
        rw [h2]
        rfl
      · dsimp only
        rw [show (absJob s k).early = earlyOf k from rfl]
        cases hse : k.main.sentEarly with
        | false =>
          rw [if_pos (hearly.1 hse)]
          rw [hse] at hu
          exact (answer_abs hu h.inv _).symm
        | true =>
          rw [if_neg (fun hh => by rw [hearly.2 hh] at hse; cases hse)]
          rw [hse] at hu
          exact (hu.abs_calls h.inv).symm
    · refine ⟨by show decide _ = false; simp [hnd], ?_⟩
      rw [List.all_eq_true]
      intro y hy
      obtain ⟨a, ha, rfl⟩ := List.mem_map.1 hy
      obtain ⟨h1, h2⟩ := hb.called a (List.mem_range.1 ha)
      unfold absAct
      rw [if_neg (by simp [h1])]
      split
      · rfl
      · rfl
  · refine hu.inv_same h.inv (fun _ => rfl) ?_ (fun x hx => absurd hx List.not_mem_nil) (fun _ => hb.done) ?_
      (fun x hx => absurd hx List.not_mem_nil)
    · exact jobOk_main hs hp hk hm hlive (fun a ha => .inl (by rw [hb.acts]))
        fun a ha => .inr (by rw [hb.acts] at ha ⊢; exact ⟨ha, rfl⟩)
    · dsimp only
      cases hse : k.main.sentEarly with
      | false =>
        rw [if_pos (by rfl)]
        refine respond_calls hT hj ⟨by show decide _ = false; simp [hnd], ?_⟩
        intro a y ha hy
        rw [show (absJob s k).early = earlyOf k from rfl, hearly.1 hse] at ha
        cases ha
      | true =>
        rw [if_neg (by simp)]
        exact same_calls

/-- A step of the thread of a list. -/
theorem sim_main {e : Env} {m : ActionList.State}
    {cfg : Traffic.Config} (hs : SoundTest e w) (hp : LoopTest w.cfg) (h : Sim w s ops t)
    (hT : Traffic.Inv cfg (fun _ => False) (abs s))
    (hj : s.jobs[j]? = some k) (hm : ActionList.MainStep (k.ctx w) k.main m) :
    Next w s ops { jobs := s.jobs.set j { k with main := m }, calls := respond k.main m k.parent s.calls } := by
  have hk := h.inv.jobs j k hj
  obtain ⟨hlive, hcase⟩ := ActionList.main_effect hk.main hk.live (no_cancel hs hp hk.entry) hm
  rcases hcase with hc | ⟨i, x, A, hc⟩ | hc
  · exact main_same hs hp h hj hm hlive hc
  · exact main_begun hs hp h hT hj hm hlive hc
  · exact main_ended hs hp h hT hj hm hlive hc

end Distbench.Loops
