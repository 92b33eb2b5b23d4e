import Verif.Lemmas.LoopsCancelJob

/-! Whole tests that may be cancelled: what each step does. -/

namespace Distbench.Loops
open Tables Services Whole Spec

/-- The invariant of a run of a list. -/
structure Fine (w : Test) (k : Job) : Prop where
  entry : (tablesOf w k.engine).actionLists[k.list]? = some k.entry
  main : ActionList.Inv (k.ctx w) k.main
  under : ∀ a u, k.under a = some u → ∃ x, k.entry.listActions[a]? = some x ∧
    Iterations.Steady (k.params x u) u.state ∧ (k.main.acts a).started = true ∧
    (k.main.acts a).skipped = false ∧ (k.main.acts a).stuck = false ∧
    ((k.main.acts a).called = true ↔ 0 < reports u.state.log)
  called : ∀ a, (k.main.acts a).called = true → (k.main.acts a).skipped = true ∨ k.under a ≠ none

/-- What a step of a run does to an action. -/
def Went (k k' : Job) (b : Nat) : Prop :=
  k'.under b = k.under b ∨ ∃ x, k.entry.listActions[b]? = some x ∧
    ((k.under b = none ∧ ∃ now spread st,
        Iterations.initiate x.proto now k.warmup k.main.canceled spread = .ok st ∧ k'.under b = some ⟨now, st⟩) ∨
      ∃ u st, k.under b = some u ∧ k'.under b = some ⟨u.since, st⟩ ∧
        (Iterations.Work (k.params x u) u.state st ∨ Iterations.Idle (k.params x u) u.state st))

/-- A step of one run: its thread, an iteration, or the bookkeeping. -/
structure Turn (w : Test) (s s' : State) (j : Nat) (k k' : Job) (ext : List Job) (new : List Traffic.Call) : Prop where
  old : s.jobs[j]? = some k
  jobs : s'.jobs = s.jobs.set j k' ++ ext
  calls : s'.calls = respond k.main k'.main k.parent s.calls ++ new
  engine : k'.engine = k.engine
  list : k'.list = k.list
  parent : k'.parent = k.parent
  entry : k'.entry = k.entry
  fine : Fine w k'
  resp : responses k'.main.log = responses k.main.log ∨
    responses k.main.log = 0 ∧ responses k'.main.log = 1
  stay : k.main.phase = .done → k'.main.phase = .done
  ext : ∀ x ∈ ext, ext = [x] ∧ ∃ (a n : Nat) (l : Nat) (y : ActionEntry), Opens w k.engine l (.action j a n) x ∧
    k.entry.listActions[a]? = some y ∧ toWork (fun _ => 0) y = .list l ∧
    ends n (logOf k' a) < starts n (logOf k' a)
  new : ∀ r ∈ new, r.job = j ∧ r.stage = .sent ∧ ∃ (y : ActionEntry) (f : Nat) (targets : List Nat),
    k.entry.listActions[r.action]? = some y ∧ toWork (fun _ => 0) y = .rpc r.rpc f ∧
    Picks w k.engine y targets ∧ r.target ∈ targets ∧
    ends r.iter (logOf k' r.action) < starts r.iter (logOf k' r.action)
  logs : ∀ a (n : Nat), 0 < starts n (logOf k a) → 0 < starts n (logOf k' a) ∧
    (ends n (logOf k a) < starts n (logOf k a) →
      ends n (logOf k' a) < starts n (logOf k' a) ∨ busy s j a n = false)
  went : ∀ a, Went k k' a

/-- A step of one RPC on its way. -/
structure Pass (w : Test) (s s' : State) (c : Nat) (r : Traffic.Call) (st : Traffic.Stage) : Prop where
  old : s.calls[c]? = some r
  jobs : s'.jobs = s.jobs
  calls : s'.calls = s.calls.set c { r with stage := st }
  how : (r.stage = .sent ∧ st = .queued ∧ (handlerOf (tablesOf w r.target) r.rpc).isSome = true) ∨
    (r.stage = .sent ∧ st = .answered) ∨ (r.stage = .answered ∧ st = .completed)

/-- A thread begins to handle an RPC. -/
structure Serve (w : Test) (s s' : State) (c : Nat) (r : Traffic.Call) (l : Nat) (k' : Job) : Prop where
  old : s.calls[c]? = some r
  stage : r.stage = .queued
  handler : handlerOf (tablesOf w r.target) r.rpc = some l
  opens : Opens w r.target l (.call c) k'
  jobs : s'.jobs = s.jobs ++ [k']
  calls : s'.calls = s.calls.set c { r with stage := .running }

/-- Some runs are told that the traffic is cancelled. -/
def Told (s s' : State) : Prop :=
  s'.calls = s.calls ∧ ∃ f : Job → Bool, s'.jobs = s.jobs.map fun k => if f k then LoopsCancel.tell k else k

variable {w : Test} {s s' : State} {j a : Nat} {k k' : Job}

theorem opens_fine {eng l : Nat} {p : Traffic.Parent} (h : Opens w eng l p k) : Fine w k := by
  obtain ⟨entry, draw, now, warmup, h1, rfl⟩ := h
  exact ⟨h1, ActionList.inv_init _ _ _, (fun a u hu => by cases hu), fun a ha => by cases ha⟩

theorem quiet_list {e : Env} (hs : SoundTest e w) (hp : CancelTest w.cfg)
    (h : (tablesOf w k.engine).actionLists[k.list]? = some k.entry) (i : Nat) : (k.ctx w).activityAt i = false := by
  unfold ActionList.Ctx.activityAt
  cases hx : (k.ctx w).entry.listActions[i]? with
  | none => rfl
  | some x =>
    have := hp.activities _ (proto_mem hs h hx)
    show ActionList.isActivity x = false
    unfold ActionList.isActivity
    cases hk : x.proto.kind with
    | activity n => exact absurd hk (this n)
    | _ => rfl

theorem fine_main {e : Env} (hs : SoundTest e w) (hp : CancelTest w.cfg) (hk : Fine w k) {m : ActionList.State}
    (hm : ActionList.MainStep (k.ctx w) k.main m) : Fine w { k with main := m } := by
  have hf := ActionList.main_frame hk.main (quiet_list hs hp hk.entry) hm
  refine ⟨hk.entry, ActionList.inv_main (sane hs hk.entry) hk.main hm, ?_, ?_⟩
  · intro a u hu
    obtain ⟨x, h1, h2, h3, h4, h5, h6⟩ := hk.under a u hu
    obtain ⟨g1, g2, g3, g4⟩ := hf.kept a h3
    refine ⟨x, h1, h2, g1, ?_⟩
    show (m.acts a).skipped = false ∧ (m.acts a).stuck = false ∧ ((m.acts a).called = true ↔ _)
    rw [g2, g3, g4]
    exact ⟨h4, h5, h6⟩
  · intro a ha
    rcases hf.fresh a ha with h1 | ⟨-, h1⟩
    · have hst : (k.main.acts a).started = true := by
        by_cases hd : k.main.phase = .done
        · exact absurd hd (ActionList.main_open hm)
        · exact (ActionList.inv_core hk.main hd).1.called_started a h1
      show (m.acts a).skipped = true ∨ _
      rw [(hf.kept a hst).2.1]
      exact hk.called a h1
    · exact .inl h1

/-- Iterations go on. -/
theorem fine_goes (hk : Fine w k) {x : ActionEntry} {u : Under} {st : Iterations.State}
    (hx : k.entry.listActions[a]? = some x) (hu : k.under a = some u)
    (hst : Iterations.Steady (k.params x u) st) (hr : reports st.log = reports u.state.log) :
    Fine w (k.goes a ⟨u.since, st⟩) := by
  refine ⟨hk.entry, hk.main, ?_, ?_⟩
  · intro b v hv
    simp only [Job.goes] at hv
    by_cases hb : b = a
    · subst hb
      rw [if_pos rfl] at hv
      cases hv
      obtain ⟨x', h1, h2, h3, h4, h5, h6⟩ := hk.under b u hu
      rw [hx] at h1
      cases h1
      exact ⟨x, hx, hst, h3, h4, h5, by dsimp only; rw [hr]; exact h6⟩
    · rw [if_neg hb] at hv
      exact hk.under b v hv
  · intro b hb
    rcases hk.called b hb with h | h
    · exact .inl h
    · right
      simp only [Job.goes]
      split
      · simp
      · exact h

theorem respond_same (m : ActionList.State) (p : Traffic.Parent) (calls : List Traffic.Call) :
    respond m m p calls = calls := by
  unfold respond
  rw [if_neg (by omega)]

theorem logOf_goes {u : Under} (b : Nat) : logOf (k.goes a u) b = if b = a then u.state.log else logOf k b := by
  unfold logOf Job.goes
  by_cases hb : b = a
  · simp only [if_pos hb]
  · simp only [if_neg hb]

theorem logOf_under {u : Under} (hu : k.under a = some u) : logOf k a = u.state.log := by
  unfold logOf
  rw [hu]

theorem went_goes {x : ActionEntry} {u : Under} {st : Iterations.State}
    (hx : k.entry.listActions[a]? = some x) (hu : k.under a = some u)
    (hw : Iterations.Work (k.params x u) u.state st ∨ Iterations.Idle (k.params x u) u.state st) (b : Nat) :
    Went k (k.goes a ⟨u.since, st⟩) b := by
  by_cases hb : b = a
  · subst hb
    exact .inr ⟨x, hx, .inr ⟨u, st, hu, by simp [Job.goes], hw⟩⟩
  · exact .inl (by simp [Job.goes, hb])

/-- The turn of an iteration. -/
theorem turn_goes (hI : Fine w k) (hj : s.jobs[j]? = some k) {x : ActionEntry} {u : Under} {st : Iterations.State}
    (hx : k.entry.listActions[a]? = some x) (hu : k.under a = some u)
    (hst : Iterations.Steady (k.params x u) st) (hr : reports st.log = reports u.state.log)
    (hw : Iterations.Work (k.params x u) u.state st ∨ Iterations.Idle (k.params x u) u.state st)
    {ext : List Job} {new : List Traffic.Call}
    (hjobs : s'.jobs = s.jobs.set j (k.goes a ⟨u.since, st⟩) ++ ext) (hcalls : s'.calls = s.calls ++ new)
    (hext : ∀ y ∈ ext, ext = [y] ∧ ∃ (n : Nat) (l : Nat), Opens w k.engine l (.action j a n) y ∧
      toWork (fun _ => 0) x = .list l ∧ ends n st.log < starts n st.log)
    (hnew : ∀ r ∈ new, r.job = j ∧ r.stage = .sent ∧ r.action = a ∧ ∃ (f : Nat) (targets : List Nat),
      toWork (fun _ => 0) x = .rpc r.rpc f ∧ Picks w k.engine x targets ∧ r.target ∈ targets ∧
      ends r.iter st.log < starts r.iter st.log)
    (hlogs : ∀ n : Nat, 0 < starts n u.state.log → 0 < starts n st.log ∧
      (ends n u.state.log < starts n u.state.log → ends n st.log < starts n st.log ∨ busy s j a n = false)) :
    Turn w s s' j k (k.goes a ⟨u.since, st⟩) ext new := by
  refine ⟨hj, hjobs, ?_, rfl, rfl, rfl, rfl, fine_goes hI hx hu hst hr, .inl rfl, id, ?_, ?_, ?_,
    went_goes hx hu hw⟩
  · show _ = respond k.main k.main k.parent s.calls ++ new
    rw [respond_same]
    exact hcalls
  · intro y hy
    obtain ⟨h0, n, l, h1, h2, h3⟩ := hext y hy
    refine ⟨h0, a, n, l, x, h1, hx, h2, ?_⟩
    rw [logOf_goes, if_pos rfl]
    exact h3
  · intro r hr'
    obtain ⟨h1, h2, rfl, f, targets, h3, h4, h5, h6⟩ := hnew r hr'
    refine ⟨h1, h2, x, f, targets, hx, h3, h4, h5, ?_⟩
    rw [logOf_goes, if_pos rfl]
    exact h6
  · intro b n hn
    rw [logOf_goes]
    by_cases hb : b = a
    · subst hb
      rw [if_pos rfl]
      rw [logOf_under hu] at hn ⊢
      exact hlogs n hn
    · rw [if_neg hb]
      exact ⟨hn, fun h => .inl h⟩

theorem ends_le {p : Iterations.Params} {st : Iterations.State} (h : Iterations.Steady p st) (n : Int) :
    ends n st.log ≤ starts n st.log := by
  have := h.counts.book.runOf n
  omega

/-- What the log says when an iteration begins. -/
theorem begins_log {p : Iterations.Params} {st st' : Iterations.State} {n t : Int} {b : Bool}
    (h : Iterations.Steady p st) (hw : Iterations.Work p st st') (hl : st'.log = .started n b t :: st.log) :
    Iterations.Steady p st' ∧ reports st'.log = reports st.log ∧
    ends n.toNat st'.log < starts n.toNat st'.log ∧
    ∀ m : Nat, 0 < starts m st.log → 0 < starts m st'.log ∧
      (ends m st.log < starts m st.log → ends m st'.log < starts m st'.log) := by
  obtain ⟨h0, h1, h2⟩ := Iterations.steady_started h hw hl
  have hs : ∀ m, starts m st'.log = starts m st.log + if n = m then 1 else 0 := by
    intro m
    rw [hl]
    simp only [starts]
    omega
  have he : ∀ m, ends m st'.log = ends m st.log := by
    intro m
    rw [hl]
    simp only [ends]
  refine ⟨Iterations.steady_work h hw, by rw [hl]; simp [reports], ?_, ?_⟩
  · have := ends_le h n
    rw [Int.toNat_of_nonneg h0, hs, he, if_pos rfl]
    omega
  · intro m hm
    rw [hs, he]
    exact ⟨by omega, fun h => by omega⟩

/-- What a step of the test is. -/
theorem step_shape {e : Env} (hs : SoundTest e w) (hp : CancelTest w.cfg)
    (hI : ∀ (j : Nat) k, s.jobs[j]? = some k → Fine w k) (h : Step w s s') :
    (∃ j k k' ext new, Turn w s s' j k k' ext new) ∨ (∃ c r st, Pass w s s' c r st ∧
        (st = .answered → handlerOf (tablesOf w r.target) r.rpc = none)) ∨ ∃ c r l k', Serve w s s' c r l k' := by
  cases h with
  | @main j k m hj hm =>
    have hk := hI j k hj
    have hf := ActionList.main_frame hk.main (quiet_list hs hp hk.entry) hm
    refine .inl ⟨j, k, { k with main := m }, [], [], hj, (List.append_nil _).symm, (List.append_nil _).symm,
      rfl, rfl, rfl, rfl, fine_main hs hp hk hm, hf.resp, fun hd => absurd hd (ActionList.main_open hm),
      (fun x hx => absurd hx List.not_mem_nil), (fun x hx => absurd hx List.not_mem_nil), ?_, fun _ => .inl rfl⟩
    exact fun b n hn => ⟨hn, fun h => .inl h⟩
  | @setUp j a k x st now spread hj hx h1 h2 h3 h4 h5 =>
    have hk := hI j k hj
    obtain ⟨g1, g2, g3⟩ := steady_initiate hp (proto_mem hs hk.entry hx) h5
    have hnc : (k.main.acts a).called = false := by
      cases hc : (k.main.acts a).called with
      | false => rfl
      | true =>
        rcases hk.called a hc with h | h
        · rw [h2] at h; cases h
        · exact absurd h4 h
    refine .inl ⟨j, k, k.goes a ⟨now, st⟩, [], [], hj, (List.append_nil _).symm, ?_, rfl, rfl, rfl, rfl, ?_, .inl rfl, id,
      (fun x hx => absurd hx List.not_mem_nil), (fun x hx => absurd hx List.not_mem_nil), ?_, ?_⟩
    · show s.calls = respond k.main k.main k.parent s.calls ++ []
      rw [respond_same, List.append_nil]
    · refine ⟨hk.entry, hk.main, ?_, ?_⟩
      · intro b v hv
        simp only [Job.goes] at hv
        by_cases hb : b = a
        · subst hb
          rw [if_pos rfl] at hv
          cases hv
          refine ⟨x, hx, g1, h1, h2, h3, ?_⟩
          show (k.main.acts b).called = true ↔ 0 < reports st.log
          rw [hnc, g2]
          simp [reports]
        · rw [if_neg hb] at hv
          exact hk.under b v hv
      · intro b hb
        rcases hk.called b hb with h | h
        · exact .inl h
        · right
          simp only [Job.goes]
          split
          · simp
          · exact h
    · intro b n hn
      rw [logOf_goes]
      by_cases hb : b = a
      · subst hb
        unfold logOf at hn
        rw [h4] at hn
        simp [starts] at hn
      · rw [if_neg hb]
        exact ⟨hn, fun h => .inl h⟩
    · intro b
      by_cases hb : b = a
      · subst hb
        exact .inr ⟨x, hx, .inl ⟨h4, now, spread, st, h5, by simp [Job.goes]⟩⟩
      · exact .inl (by simp [Job.goes, hb])
  | @rpcs j a k x u st n b t q f targets hu hw hl hwk hpk =>
    obtain ⟨hj, hx, hun⟩ := hu
    have hk := hI j k hj
    obtain ⟨x', h1, h2, -⟩ := hk.under a u hun
    rw [hx] at h1
    cases h1
    obtain ⟨g1, g2, g3, g4⟩ := begins_log h2 hw hl
    refine .inl ⟨j, k, _, [], _, turn_goes hk hj hx hun g1 g2 (.inl hw) (List.append_nil _).symm rfl
      (fun x hx => absurd hx List.not_mem_nil) ?_ (fun m hm => ⟨(g4 m hm).1, fun h => .inl ((g4 m hm).2 h)⟩)⟩
    intro r hr
    unfold Traffic.newCalls at hr
    obtain ⟨t, ht, rfl⟩ := List.mem_map.1 hr
    exact ⟨rfl, rfl, rfl, f, targets, hwk, hpk, ht, g3⟩
  | @list j a k x u st n b t l k1 hu hw hl hwk ho =>
    obtain ⟨hj, hx, hun⟩ := hu
    have hk := hI j k hj
    obtain ⟨x', h1, h2, -⟩ := hk.under a u hun
    rw [hx] at h1
    cases h1
    obtain ⟨g1, g2, g3, g4⟩ := begins_log h2 hw hl
    refine .inl ⟨j, k, _, [k1], [], turn_goes hk hj hx hun g1 g2 (.inl hw) rfl (List.append_nil _).symm
      ?_ (fun x hx => absurd hx List.not_mem_nil) (fun m hm => ⟨(g4 m hm).1, fun h => .inl ((g4 m hm).2 h)⟩)⟩
    intro y hy
    rw [List.mem_singleton] at hy
    subst hy
    exact ⟨rfl, _, l, ho, hwk, g3⟩
  | @other j a k x u st n b t hu hw hl hwk =>
    obtain ⟨hj, hx, hun⟩ := hu
    have hk := hI j k hj
    obtain ⟨x', h1, h2, -⟩ := hk.under a u hun
    rw [hx] at h1
    cases h1
    obtain ⟨g1, g2, g3, g4⟩ := begins_log h2 hw hl
    exact .inl ⟨j, k, _, [], [], turn_goes hk hj hx hun g1 g2 (.inl hw) (List.append_nil _).symm (List.append_nil _).symm
      (fun x hx => absurd hx List.not_mem_nil) (fun x hx => absurd hx List.not_mem_nil)
      (fun m hm => ⟨(g4 m hm).1, fun h => .inl ((g4 m hm).2 h)⟩)⟩
  | @ended j a k x u st n hu hw hl hb =>
    obtain ⟨hj, hx, hun⟩ := hu
    have hk := hI j k hj
    obtain ⟨x', h1, h2, -⟩ := hk.under a u hun
    rw [hx] at h1
    cases h1
    refine .inl ⟨j, k, _, [], [], turn_goes hk hj hx hun (Iterations.steady_work h2 hw) (by rw [hl]; simp [reports])
      (.inl hw) (List.append_nil _).symm (List.append_nil _).symm (fun x hx => absurd hx List.not_mem_nil)
      (fun x hx => absurd hx List.not_mem_nil) ?_⟩
    intro m hm
    rw [hl]
    simp only [starts, ends]
    refine ⟨hm, fun h => ?_⟩
    by_cases hnm : n = m
    · right
      rw [hnm] at hb
      exact hb
    · left
      rw [if_neg hnm]
      omega
  | @quiet j a k x u st hu hw hl =>
    obtain ⟨hj, hx, hun⟩ := hu
    have hk := hI j k hj
    obtain ⟨x', h1, h2, -⟩ := hk.under a u hun
    rw [hx] at h1
    cases h1
    refine .inl ⟨j, k, _, [], [], turn_goes hk hj hx hun (Iterations.steady_work h2 hw) (by rw [hl])
      (.inl hw) (List.append_nil _).symm (List.append_nil _).symm (fun x hx => absurd hx List.not_mem_nil)
      (fun x hx => absurd hx List.not_mem_nil) ?_⟩
    intro m hm
    rw [hl]
    exact ⟨hm, fun h => .inl h⟩
  | @idle j a k x u st hu hw hl =>
    obtain ⟨hj, hx, hun⟩ := hu
    have hk := hI j k hj
    obtain ⟨x', h1, h2, -⟩ := hk.under a u hun
    rw [hx] at h1
    cases h1
    have hlog : st.log = u.state.log := (Iterations.idle_frame hw).2.1
    refine .inl ⟨j, k, _, [], [], turn_goes hk hj hx hun (Iterations.steady_idle h2 hw) (by rw [hlog])
      (.inr hw) (List.append_nil _).symm (List.append_nil _).symm (fun x hx => absurd hx List.not_mem_nil)
      (fun x hx => absurd hx List.not_mem_nil) ?_⟩
    intro m hm
    rw [hlog]
    exact ⟨hm, fun h => .inl h⟩
  | @allDone j a k x u st hu hw hl =>
    obtain ⟨hj, hx, hun⟩ := hu
    have hk := hI j k hj
    obtain ⟨x', h1, h2, h3, h4, h5, h6⟩ := hk.under a u hun
    rw [hx] at h1
    cases h1
    have hr0 := Iterations.steady_done h2 hw hl
    have hnc : (k.main.acts a).called = false := by
      cases hc : (k.main.acts a).called with
      | false => rfl
      | true => have := h6.1 hc; omega
    have hnd : k.main.phase ≠ .done := by
      intro hd
      have := (ActionList.ended_closed hk.main (.inl hd) h3).1
      rw [hnc] at this
      cases this
    obtain ⟨hC, hS⟩ := ActionList.inv_core hk.main hnd
    have hlt := hC.started_lt a h3
    have hcb := ActionList.inv_env hk.main (.callback a hlt h3 h5 hnc (quiet_list hs hp hk.entry a))
    refine .inl ⟨j, k, { k.goes a ⟨u.since, st⟩ with main := ActionList.callback (k.ctx w) a k.main }, [], [], hj,
      (List.append_nil _).symm, (List.append_nil _).symm, rfl, rfl, rfl, rfl, ?_,
      ActionList.callback_resp hC hnc, fun hd => absurd hd hnd,
      (fun x hx => absurd hx List.not_mem_nil), (fun x hx => absurd hx List.not_mem_nil), ?_,
      went_goes hx hun (.inl hw)⟩
    · refine ⟨hk.entry, hcb, ?_, ?_⟩
      · intro b v hv
        simp only [Job.goes] at hv
        by_cases hb : b = a
        · subst hb
          rw [if_pos rfl] at hv
          cases hv
          refine ⟨x, hx, Iterations.steady_work h2 hw, ?_⟩
          dsimp only
          rw [ActionList.callback_acts, if_pos rfl]
          refine ⟨h3, h4, h5, ?_⟩
          rw [hl]
          simp [reports]
          omega
        · rw [if_neg hb] at hv
          obtain ⟨y, g1, g2, g3⟩ := hk.under b v hv
          refine ⟨y, g1, g2, ?_⟩
          dsimp only
          rw [ActionList.callback_acts, if_neg hb]
          exact g3
      · intro b hb
        dsimp only at hb ⊢
        rw [ActionList.callback_acts] at hb ⊢
        by_cases hba : b = a
        · right
          simp [Job.goes, hba]
        · rw [if_neg hba] at hb ⊢
          rcases hk.called b hb with h | h
          · exact .inl h
          · right
            simp only [Job.goes, if_neg hba]
            exact h
    · intro b n hn
      have : logOf { k.goes a ⟨u.since, st⟩ with main := ActionList.callback (k.ctx w) a k.main } b =
          if b = a then st.log else logOf k b := logOf_goes (u := ⟨u.since, st⟩) b
      rw [this]
      by_cases hb : b = a
      · subst hb
        rw [logOf_under hun] at hn ⊢
        rw [if_pos rfl, hl]
        simp only [starts, ends]
        exact ⟨hn, fun h => .inl h⟩
      · rw [if_neg hb]
        exact ⟨hn, fun h => .inl h⟩
  | @finish j a k hj hlt hc hcl =>
    have hk := hI j k hj
    have hfin := ActionList.inv_env hk.main (.finish a hlt hc hcl)
    refine .inl ⟨j, k, { k with main := ActionList.finishAction a k.main }, [], [], hj, (List.append_nil _).symm, ?_,
      rfl, rfl, rfl, rfl, ?_, .inl ?_, id,
      (fun x hx => absurd hx List.not_mem_nil), (fun x hx => absurd hx List.not_mem_nil),
      fun b n hn => ⟨hn, fun h => .inl h⟩, fun _ => .inl rfl⟩
    · show s.calls = respond k.main (ActionList.finishAction a k.main) k.parent s.calls ++ []
      have : responses (ActionList.finishAction a k.main).log = responses k.main.log :=
        ActionList.responses_cons_other (by simp)
      unfold respond
      rw [this, if_neg (by omega), List.append_nil]
    · refine ⟨hk.entry, hfin, ?_, ?_⟩
      · intro b v hv
        obtain ⟨y, g1, g2, g3⟩ := hk.under b v hv
        refine ⟨y, g1, g2, ?_⟩
        dsimp only
        rw [ActionList.finish_acts]
        split
        · rename_i hb
          subst hb
          exact g3
        · exact g3
      · intro b hb
        dsimp only at hb ⊢
        rw [ActionList.finish_acts] at hb ⊢
        split at hb
        · rename_i hba
          subst hba
          rw [if_pos rfl]
          exact hk.called b hb
        · rename_i hba
          rw [if_neg hba]
          exact hk.called b hb
    · exact ActionList.responses_cons_other (by simp)
  | @deliver c call hc hst =>
    refine .inr (.inl ⟨c, call, _, ⟨hc, rfl, rfl, ?_⟩, ?_⟩)
    · split
      · rename_i hh
        exact .inl ⟨hst, rfl, hh⟩
      · exact .inr (.inl ⟨hst, rfl⟩)
    · split
      · intro hh; cases hh
      · rename_i hh
        intro _
        simpa using hh
  | @dispatch c call l k' hc hst hh hf ho => exact .inr (.inr ⟨c, call, l, k', hc, hst, hh, ho, rfl, rfl⟩)
  | @complete c call hc hst => 
    exact .inr (.inl ⟨c, call, _, ⟨hc, rfl, rfl, .inr (.inr ⟨hst, rfl⟩)⟩, fun hh => by cases hh⟩)

/-! ### Telling runs -/

theorem told_fine (hk : Fine w k) : Fine w (LoopsCancel.tell k) := by
  refine ⟨hk.entry, ActionList.inv_env hk.main .cancel, ?_, ?_⟩
  · intro a u hu
    obtain ⟨v, h1, rfl⟩ := Option.map_eq_some_iff.1 hu
    obtain ⟨x, g1, g2, g3⟩ := hk.under a v h1
    exact ⟨x, g1, Iterations.steady_idle g2 .cancel, g3⟩
  · intro a ha
    rcases hk.called a ha with h | h
    · exact .inl h
    · right
      intro hn
      exact h (Option.map_eq_none_iff.1 hn)

theorem told_log (b : Nat) : logOf (LoopsCancel.tell k) b = logOf k b := by
  unfold logOf LoopsCancel.tell
  dsimp only
  cases k.under b <;> rfl

end Distbench.Loops
