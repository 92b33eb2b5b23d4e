import Verif.Lemmas.LoopsRun

/-! What the properties of the traffic in Model/Loops.lean need besides the simulation. -/

namespace Distbench.Traffic
open Spec

theorem lateInv_timed {cfg : Config} {ops : List TOp} {s : TState} (hn : NoEarlyResponse cfg)
    (h : TimedRun cfg ops s) : LateInv cfg s.base := by
  refine trun_induction (s0 := { base := initial cfg }) (P := fun _ s => LateInv cfg s.base) (late_initial cfg) ?_ h
  intro ops s op s' hrun ih hs
  cases op with
  | base op => obtain ⟨_, b, h1, rfl⟩ := tstep_base hs; exact late_step hn ih h1
  | late j a => obtain ⟨_, _, _, _, _, _, _, _, rfl⟩ := tstep_late hs; exact ih
  | stop j a =>
    obtain ⟨job, x, left, hj, hx, hw, _, hopen, _, rfl⟩ := tstep_stop hs
    exact late_set (job := job) (k' := { job with acts := job.acts.set a .finished }) ih rfl
      (fun b hb => ih j job b hj hb) _

end Distbench.Traffic

namespace Distbench.Loops
open Tables Services Whole Spec

variable {w : Test} {s : State} {ops : List Traffic.TOp} {t : Traffic.TState}

theorem loop_of_time {cfg : Config} (h : TimeTest cfg) (ha : ∀ a ∈ cfg.actions, ∀ n, a.kind ≠ .activity n) :
    LoopTest cfg := ⟨ha, h.cancel, h.limited⟩

theorem time_of_plain {cfg : Config} (h : PlainTest cfg) : TimeTest cfg := by
  refine ⟨h.predicates, h.cancel, h.kinds, ?_, h.activities, h.channels⟩
  intro a ha it hi
  obtain ⟨-, ⟨n, h1, h2, h3⟩, h4⟩ := h.counted a ha it hi
  rw [h1]
  exact ⟨h4, h2, h3⟩

theorem named_abs (cfg : Config) (s : State) (rpc : Str) : madeNamed cfg (abs s) rpc = rpcsNamed cfg s rpc := by
  unfold madeNamed rpcsNamed
  show (s.calls.map (absCall s)).countP _ = _
  rw [List.countP_map]
  rfl

theorem over_abs (h : LoopsOver s) : TrafficOver (abs s) := by
  constructor
  · intro k hk
    obtain ⟨x, hx, rfl⟩ := List.mem_map.1 hk
    exact decide_eq_true (h.1 x hx)
  · intro r hr
    obtain ⟨x, hx, rfl⟩ := List.mem_map.1 hr
    exact h.2 x hx

theorem abs_over (h : TrafficOver (abs s)) : LoopsOver s :=
  ⟨fun k hk => of_decide_eq_true (h.1 _ (List.mem_map_of_mem hk)), fun r hr => h.2 (absCall s r) (List.mem_map_of_mem hr)⟩

theorem begun_log {j a : Nat} {k : Job} (h : s.jobs[j]? = some k) : allStarts (logAt s j a) = loopIterations k a := by
  unfold logAt logOf loopIterations
  rw [h]
  dsimp only
  cases k.under a <;> rfl

theorem time_abs {n : Nat} (h : Sim w s ops t) (ht : LoopTime w.cfg n s) : TimeFor w.cfg n ops t := by
  intro j job al a name act hj h1 h2 h3 h4
  rw [h.base] at hj
  have hj : (s.jobs.map (absJob s))[j]? = some job := hj
  rw [List.getElem?_map] at hj
  obtain ⟨k, hk, rfl⟩ := Option.map_eq_some_iff.1 hj
  rw [h.count, begun_log hk]
  exact ht k (List.mem_of_getElem? hk) a act ⟨al, name, h1, h2, h3⟩ h4

theorem run_below {c : Nat} :
    (∀ j, RunBelow s c j → JobBelow (abs s) c j) ∧ ∀ c', RpcBelow s c c' → CallBelow (abs s) c c' := by
  have hJ : ∀ j, RunBelow s c j → JobBelow (abs s) c j := by
    intro j hb
    refine RunBelow.rec (s := s) (c := c) (motive_1 := fun j _ => JobBelow (abs s) c j)
      (motive_2 := fun c' _ => CallBelow (abs s) c c') ?_ ?_ ?_ ?_ hb
    · intro j k hj hp
      exact .here (abs_get hj) (by show absParent s k.parent = _; rw [hp]; rfl)
    · intro j c' k hj hp _ ih
      exact .call (abs_get hj) (by show absParent s k.parent = _; rw [hp]; rfl) ih
    · intro j j' a n k hj hp _ ih
      exact .action (abs_get hj) (by show absParent s k.parent = _; rw [hp]; rfl) ih
    · intro c' r hc _ ih
      refine .made (r := absCall s r) ?_ ih
      show (s.calls.map _)[c']? = _
      rw [List.getElem?_map, hc]
      rfl
  refine ⟨hJ, ?_⟩
  intro c' hb
  cases hb with
  | made h1 h2 =>
    refine .made (r := absCall s _) ?_ (hJ _ h2)
    show (s.calls.map _)[c']? = _
    rw [List.getElem?_map, h1]
    rfl

theorem no_early {e : Env} {w : Test} (hs : SoundTest e w) (h : RespondsLast w.cfg) (F : Nat → Nat) :
    NoEarlyResponse (globalConfig w F) := by
  intro l x hx
  have hx : x ∈ (actionsOf (w.tables 0) l).map (toAction F) := hx
  obtain ⟨y, hy, rfl⟩ := List.mem_map.1 hx
  obtain ⟨a, ha⟩ := List.getElem?_of_mem hy
  obtain ⟨al, -, -, h3, -⟩ := entry_at hs ha
  exact h _ h3

/-- The action at a place, by the text and by the tables. -/
theorem entry_action {e : Env} {w : Test} (hs : SoundTest e w) {k : Job}
    (hk : (tablesOf w k.engine).actionLists[k.list]? = some k.entry) {a : Nat} {x : ActionEntry}
    (hx : k.entry.listActions[a]? = some x) : x.proto ∈ w.cfg.actions ∧ ActionAt w.cfg k a x.proto := by
  obtain ⟨al, h1, h2, h3, -⟩ := entry_at hs (entry_zero hs hk hx)
  exact ⟨h3, al, _, h1, h2, find_named hs.distinct.actions h3 rfl⟩

theorem action_entry {e : Env} {w : Test} (hs : SoundTest e w) {k : Job} (hk : JobOk w k) {a : Nat} {x : ActionEntry}
    (hx : k.entry.listActions[a]? = some x) : x.proto ∈ w.cfg.actions ∧ ActionAt w.cfg k a x.proto :=
  entry_action hs hk.entry hx

theorem name_entry {e : Env} {w : Test} (hs : SoundTest e w) {k : Job}
    (hk : (tablesOf w k.engine).actionLists[k.list]? = some k.entry) {a : Nat} {act : Action}
    (h : ActionAt w.cfg k a act) : ∃ x, k.entry.listActions[a]? = some x ∧ x.proto = act ∧ act ∈ w.cfg.actions := by
  obtain ⟨al, name, h1, h2, h3⟩ := h
  have hlt : a < (actionsOf (w.tables 0) k.list).length := by
    rw [actionsOf_length hs h1]
    exact (List.getElem?_eq_some_iff.1 h2).1
  obtain ⟨x, hx⟩ : ∃ x, (actionsOf (w.tables 0) k.list)[a]? = some x := ⟨_, List.getElem?_eq_getElem hlt⟩
  obtain ⟨al', g1, g2, g3, -⟩ := entry_at hs hx
  rw [h1] at g1
  cases g1
  rw [h2] at g2
  injection g2 with g2
  have := find_named hs.distinct.actions g3 rfl
  rw [actionNamed, g2, this] at h3
  injection h3 with h3
  rw [← tables_same hs k.engine, actions_entry hk] at hx
  exact ⟨_, hx, h3, by rw [← h3]; exact g3⟩

theorem entry_at_name {e : Env} {w : Test} (hs : SoundTest e w) {k : Job} (hk : JobOk w k) {a : Nat} {act : Action}
    (h : ActionAt w.cfg k a act) : ∃ x, k.entry.listActions[a]? = some x ∧ x.proto = act ∧ act ∈ w.cfg.actions :=
  name_entry hs hk.entry h

/-- The iterations of an action that has ended in a run. -/
theorem begun_done {e : Env} {w : Test} (hs : SoundTest e w) (hp : LoopTest w.cfg) {k : Job} (hk : JobOk w k)
    {a : Nat} {x : ActionEntry} (hx : k.entry.listActions[a]? = some x)
    (hc : (k.main.acts a).called = true) (hsk : (k.main.acts a).skipped = false) :
    fewestIterations x.proto ≤ loopIterations k a ∧
    (¬ hasTimeLimit x.proto → loopIterations k a = fewestIterations x.proto) := by
  obtain ⟨hm, -⟩ := action_entry hs hk hx
  have hu : k.under a ≠ none := by
    rcases hk.called a hc with h | h
    · rw [hsk] at h; cases h
    · exact h
  obtain ⟨u, hu⟩ := Option.ne_none_iff_exists'.1 hu
  obtain ⟨x', hx', hg, -, -, -, hr⟩ := hk.under a u hu
  rw [hx] at hx'
  cases hx'
  obtain ⟨-, -, h3, h4⟩ := Iterations.good_reported hg (hr.1 hc)
  have hb : loopIterations k a = allStarts u.state.log := by
    unfold loopIterations
    rw [hu]
  rw [hb, ← fewest_text (F := fun _ => 0) hp.limited hm]
  obtain ⟨e1, -, e3, e4⟩ := params_eq x (fun _ => 0) u.since k.warmup
  unfold Job.params at h3 h4
  unfold Traffic.atLeast
  cases ht : (toAction (fun _ => 0) x).timed with
  | none =>
    have := h3 (e3 ht)
    dsimp only
    rw [e1]
    exact ⟨by omega, fun _ => by omega⟩
  | some m =>
    have := e4 (by rw [ht]; exact fun h => by cases h)
    rw [ht, Option.getD_some] at this
    dsimp only
    refine ⟨?_, fun hno => ?_⟩
    · omega
    · rw [timed_none.2 hno] at ht
      cases ht

/-- Every list can be begun. -/
theorem opens_exists {e : Env} {w : Test} (hs : SoundTest e w) {l : Nat} (hl : l < w.cfg.actionLists.length)
    (eng : Nat) (p : Traffic.Parent) : ∃ k, Opens w eng l p k := by
  obtain ⟨svc, ht⟩ := tables_loaded hs eng
  have hlen := lists_length ht
  exact ⟨_, _, fun _ => 0, 0, false, List.getElem?_eq_getElem (by omega), rfl⟩

/-- Every accepted test can begin. -/
theorem start_exists {e : Env} {w : Test} (hs : SoundTest e w) : ∃ s, Start w s := by
  have key : ∀ L : List (Nat × Nat), (∀ r ∈ L, r.2 < w.cfg.actionLists.length) → ∃ jobs : List Job,
      jobs.length = L.length ∧ ∀ (j : Nat) r, L[j]? = some r → ∃ k, jobs[j]? = some k ∧ Opens w r.1 r.2 .root k := by
    intro L
    induction L with
    | nil => exact fun _ => ⟨[], rfl, fun j r h => by simp at h⟩
    | cons r L ih =>
      intro h
      obtain ⟨jobs, h1, h2⟩ := ih fun r hr => h r (List.mem_cons_of_mem _ hr)
      obtain ⟨k, hk⟩ := opens_exists hs (h r List.mem_cons_self) r.1 .root
      refine ⟨k :: jobs, by simp [h1], ?_⟩
      intro j r' hr'
      cases j with
      | zero => cases hr'; exact ⟨k, rfl, hk⟩
      | succ j => exact h2 j r' hr'
  obtain ⟨jobs, h1, h2⟩ := key (roots w.cfg) (by
    intro r hr
    obtain ⟨i, -, h⟩ := mem_roots hr
    unfold rootList at h
    split at h
    · cases h
    · exact (List.findIdx?_eq_some_iff_findIdx_eq.1 h).1)
  exact ⟨⟨jobs, []⟩, rfl, h1, h2⟩

/-- Without time limits the predictions agree. -/
theorem predicts_plain {cfg : Config} (hp : PlainTest cfg) {I : Action → Nat} {fan predicted : Str → Nat} {rpc : Str}
    (hI : ∀ a ∈ cfg.actions, I a = iterationCount a) (h : PredictsNames cfg fan rpc predicted) :
    PredictsBy cfg I fan rpc predicted := by
  intro l hl
  rw [h l hl]
  congr 1
  refine List.map_congr_left fun n _ => ?_
  cases ha : actionNamed cfg n with
  | none => rfl
  | some a =>
    show actionRpcs fan predicted rpc a = _
    have := List.mem_of_find?_eq_some (show cfg.actions.find? _ = some a from ha)
    unfold actionRpcs
    rw [← hI a this]
    dsimp only
    cases a.kind <;> rfl

theorem plain_counts {cfg : Config} (hp : PlainTest cfg) (n : Nat) {a : Action} (ha : a ∈ cfg.actions) :
    fewestIterations a = iterationCount a ∧ mostIterations n a = iterationCount a ∧ ¬ hasTimeLimit a := by
  unfold fewestIterations mostIterations iterationCount
  cases hi : a.iterations with
  | none => exact ⟨rfl, rfl, fun ⟨it, h, _⟩ => by rw [hi] at h; cases h⟩
  | some it =>
    have := (hp.counted a ha it hi).1
    dsimp only
    rw [this]
    exact ⟨rfl, rfl, fun ⟨it', h, h'⟩ => by rw [hi] at h; cases h; exact h' this⟩

end Distbench.Loops
