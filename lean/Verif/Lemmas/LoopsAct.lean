import Verif.Lemmas.LoopsStep

/-! The traffic of Model/Loops.lean as seen from outside is that of Model/WholeTime.lean: the steps of
actions and their iterations. -/

namespace Distbench.Loops
open Tables Services Whole Spec

variable {w : Test} {s s' : State} {j a : Nat} {k k' : Job} {ext : List Job} {ops : List Traffic.TOp}
  {t : Traffic.TState} {x : ActionEntry} {u u' : Under}

theorem goes_log (k : Job) (a : Nat) (u' : Under) (b : Nat) :
    logOf (k.goes a u') b = if b = a then u'.state.log else logOf k b := by
  unfold logOf Job.goes
  dsimp only
  by_cases hb : b = a
  · rw [if_pos hb, if_pos hb]
  · rw [if_neg hb, if_neg hb]

theorem goes_act (k : Job) {a b : Nat} (u' : Under) (h : b ≠ a) : absAct (k.goes a u') b = absAct k b := by
  unfold absAct
  rw [goes_log, if_neg h]
  rfl

/-- The change when one action moves on. -/
theorem upd_goes {calls : List Traffic.Call} (hj : s.jobs[j]? = some k)
    (hpl : ∀ n : Nat, 0 < starts n (logOf k a) →
      Iterations.place n u'.state.log = Iterations.place n (logOf k a))
    (hx : ∀ y ∈ ext, ∀ b, y.under b = none) :
    Upd s { jobs := s.jobs.set j (k.goes a u') ++ ext, calls := calls } j k (k.goes a u') ext := by
  refine ⟨hj, rfl, rfl, rfl, rfl, rfl, hx, ?_⟩
  intro b n hn
  rw [goes_log]
  split
  · rename_i hb
    subst hb
    exact hpl n hn
  · rfl

theorem upd_put (hj : s.jobs[j]? = some k)
    (hpl : ∀ n : Nat, 0 < starts n (logOf k a) →
      Iterations.place n u'.state.log = Iterations.place n (logOf k a)) :
    Upd s (s.put j (k.goes a u')) j k (k.goes a u') [] := by
  have := upd_goes (ext := []) (calls := s.calls) hj hpl (fun y hy => absurd hy List.not_mem_nil)
  rw [List.append_nil] at this
  exact this

theorem jobOk_goes (hk : JobOk w k) (hx : k.entry.listActions[a]? = some x)
    (hg : Iterations.Good (k.params x u') u'.state) (h1 : (k.main.acts a).started = true)
    (h2 : (k.main.acts a).skipped = false) (h3 : (k.main.acts a).stuck = false)
    (h4 : (k.main.acts a).called = true ↔ 0 < reports u'.state.log) : JobOk w (k.goes a u') := by
  refine ⟨hk.entry, hk.main, hk.live, ?_, ?_⟩
  · intro b v hv
    unfold Job.goes at hv
    dsimp only at hv
    split at hv
    · rename_i hb
      cases hv
      subst hb
      exact ⟨x, hx, hg, h1, h2, h3, h4⟩
    · exact hk.under b v hv
  · intro b hb
    rcases hk.called b hb with h | h
    · exact .inl h
    · right
      unfold Job.goes
      dsimp only
      split
      · exact fun hh => by cases hh
      · exact h

theorem late_put (hj : s.jobs[j]? = some k) (hu : Upd s s' j k k' ext)
    (hm : ∀ b, (k.main.acts b).called = true → (k'.main.acts b).called = true) :
    ∀ (i b : Nat) y, s.jobs[i]? = some y → (y.main.acts b).called = true →
      ∃ z, s'.jobs[i]? = some z ∧ (z.main.acts b).called = true := by
  intro i b y hi hy
  by_cases hij : i = j
  · subst hij
    rw [hj] at hi
    cases hi
    exact ⟨_, hu.get, hm b hy⟩
  · exact ⟨y, hu.other hi hij, hy⟩

/-- The view does not change when the number of begun iterations does not. -/
theorem abs_put (hI : Inv w s) (hu : Upd s (s.put j (k.goes a u')) j k (k.goes a u') [])
    (hs : allStarts u'.state.log = allStarts (logOf k a)) : abs (s.put j (k.goes a u')) = abs s := by
  have hact : ∀ b, absAct (k.goes a u') b = absAct k b := by
    intro b
    by_cases hb : b = a
    · subst hb
      unfold absAct
      rw [goes_log, if_pos rfl, hs]
      rfl
    · exact goes_act k u' hb
  unfold abs
  congr 1
  · rw [hu.abs_jobs hI, List.map_nil, List.append_nil, acts_same hact]
    exact set_same (abs_get hu.old)
  · exact hu.abs_calls hI

theorem logAt_put (hu : Upd s s' j k (k.goes a u') ext) (i b : Nat) :
    logAt s' i b = if i = j ∧ b = a then u'.state.log else logAt s i b := by
  by_cases hi : i = j
  · subst hi
    rw [hu.logAt_same, hu.logAt_old, goes_log]
    by_cases hb : b = a
    · rw [if_pos hb, if_pos ⟨rfl, hb⟩]
    · rw [if_neg hb, if_neg (fun hh => hb hh.2)]
  · rw [if_neg (fun hh => hi hh.1)]
    exact hu.logAt_other hi b

/-- Nothing happens that can be seen from outside. -/
theorem sim_quiet (h : Sim w s ops t) (hj : s.jobs[j]? = some k) (hlog : u'.state.log = logOf k a)
    (hok : JobOk w (k.goes a u')) : Next w s ops (s.put j (k.goes a u')) := by
  have hu : Upd s (s.put j (k.goes a u')) j k (k.goes a u') [] := upd_put hj fun n _ => by rw [hlog]
  refine sim_stutter h (abs_put h.inv hu (by rw [hlog])) (late_put hj hu fun b hb => hb) ?_ ?_
  · intro i b
    rw [logAt_put hu]
    split
    · rename_i hh
      rw [hh.1, hh.2, hu.logAt_old, hlog]
    · rfl
  · refine hu.inv_same h.inv ?_ hok (fun y hy => absurd hy List.not_mem_nil) id same_calls
      (fun y hy => absurd hy List.not_mem_nil)
    intro b
    rw [goes_log]
    split
    · rename_i hb
      rw [hlog, hb]
    · rfl

theorem under_log (hu : k.under a = some u) : logOf k a = u.state.log := by
  unfold logOf
  rw [hu]

theorem sim_setUp {e : Env} {st : Iterations.State} {now spread : Int} (hs : SoundTest e w) (hp : LoopTest w.cfg)
    (h : Sim w s ops t) (hj : s.jobs[j]? = some k)
    (hx : k.entry.listActions[a]? = some x) (h1 : (k.main.acts a).started = true)
    (h2 : (k.main.acts a).skipped = false) (h3 : (k.main.acts a).stuck = false) (hn : k.under a = none)
    (hi : Iterations.initiate x.proto now k.warmup k.main.canceled spread = .ok st) :
    Next w s ops (s.put j (k.goes a ⟨now, st⟩)) := by
  have hk := h.inv.jobs j k hj
  rw [hk.live] at hi
  have hmem := proto_mem hs hk.entry hx
  obtain ⟨hg, hl⟩ := good_initiate (hp.limited _ hmem) (hp.activities _ hmem) hi
  refine sim_quiet h hj ?_ (jobOk_goes hk hx hg h1 h2 h3 ?_)
  · show st.log = _
    rw [hl]
    unfold logOf
    rw [hn]
  · constructor
    · intro hc
      rcases hk.called a hc with hh | hh
      · rw [h2] at hh; cases hh
      · exact absurd hn hh
    · intro hc
      rw [show (Under.mk now st).state.log = st.log from rfl, hl] at hc
      exact absurd hc (Nat.lt_irrefl 0)

/-- What is known about an action that is under way. -/
theorem under_known (hk : JobOk w k) (hu : UnderWay s j a k x u) :
    Iterations.Good (k.params x u) u.state ∧ (k.main.acts a).started = true ∧
    (k.main.acts a).skipped = false ∧ (k.main.acts a).stuck = false ∧
    ((k.main.acts a).called = true ↔ 0 < reports u.state.log) := by
  obtain ⟨y, h1, h2⟩ := hk.under a u hu.2.2
  rw [hu.2.1] at h1
  cases h1
  exact h2

theorem sim_quietWork {st : Iterations.State} (h : Sim w s ops t) (hu : UnderWay s j a k x u)
    (hw : Iterations.Work (k.params x u) u.state st) (hl : st.log = u.state.log) :
    Next w s ops (s.put j (k.goes a ⟨u.since, st⟩)) := by
  have hk := h.inv.jobs j k hu.1
  obtain ⟨hg, h1, h2, h3, h4⟩ := under_known hk hu
  refine sim_quiet h hu.1 (by rw [under_log hu.2.2]; exact hl)
    (jobOk_goes hk hu.2.1 (Iterations.good_work hg hw) h1 h2 h3 ?_)
  dsimp only
  rw [hl]
  exact h4

theorem sim_idle {st : Iterations.State} (h : Sim w s ops t) (hu : UnderWay s j a k x u)
    (hw : Iterations.Idle (k.params x u) u.state st) (hc : st.canceled = k.main.canceled) :
    Next w s ops (s.put j (k.goes a ⟨u.since, st⟩)) := by
  have hk := h.inv.jobs j k hu.1
  obtain ⟨hg, h1, h2, h3, h4⟩ := under_known hk hu
  have hl := (Iterations.idle_frame hw).2.1
  refine sim_quiet h hu.1 (by rw [under_log hu.2.2]; exact hl)
    (jobOk_goes hk hu.2.1 (Iterations.good_idle hg hw (by rw [hc]; exact hk.live)) h1 h2 h3 ?_)
  dsimp only
  rw [hl]
  exact h4

theorem sim_ended {st : Iterations.State} {n : Int} (h : Sim w s ops t) (hu : UnderWay s j a k x u)
    (hw : Iterations.Work (k.params x u) u.state st) (hl : st.log = .ended n :: u.state.log)
    (hb : busy s j a n.toNat = false) : Next w s ops (s.put j (k.goes a ⟨u.since, st⟩)) := by
  have hk := h.inv.jobs j k hu.1
  obtain ⟨hg, h1, h2, h3, h4⟩ := under_known hk hu
  have hlog := under_log hu.2.2
  have hupd : Upd s (s.put j (k.goes a ⟨u.since, st⟩)) j k (k.goes a ⟨u.since, st⟩) [] :=
    upd_put hu.1 fun m _ => by dsimp only; rw [hl, hlog]; rfl
  have hok : JobOk w (k.goes a ⟨u.since, st⟩) := by
    refine jobOk_goes hk hu.2.1 (Iterations.good_work hg hw) h1 h2 h3 ?_
    dsimp only
    rw [hl]
    exact h4
  have hall : ∀ i b, allStarts (logAt (s.put j (k.goes a ⟨u.since, st⟩)) i b) = allStarts (logAt s i b) := by
    intro i b
    rw [logAt_put hupd]
    split
    · rename_i hh
      rw [hh.1, hh.2, hupd.logAt_old, hlog]
      dsimp only
      rw [hl]
      rfl
    · rfl
  have hown : ∀ i b m p, Owned s i b m p → (i = j → b = a → m = n.toNat → p) →
      Owned (s.put j (k.goes a ⟨u.since, st⟩)) i b m p := by
    intro i b m p ho hp
    unfold Owned
    rw [logAt_put hupd]
    split
    · rename_i hh
      obtain ⟨rfl, rfl⟩ := hh
      dsimp only
      rw [hl]
      obtain ⟨o1, o2⟩ := ho
      rw [hupd.logAt_old, hlog] at o1 o2
      refine ⟨o1, fun hnp => ?_⟩
      have := o2 hnp
      show (if n = (m : Int) then 1 else 0) + ends m u.state.log < starts m u.state.log
      rw [if_neg]
      · omega
      · intro hnm
        exact hnp (hp rfl rfl (by rw [hnm]; rfl))
    · exact ho
  have hb' := hb
  unfold busy at hb'
  rw [Bool.or_eq_false_iff, List.any_eq_false, List.any_eq_false] at hb'
  refine sim_stutter h (abs_put h.inv hupd ?_) (late_put hu.1 hupd fun b hb => hb) hall ?_
  · rw [hlog]
    dsimp only
    rw [hl]
    rfl
  · refine hupd.inv h.inv hok (fun y hy => absurd hy List.not_mem_nil) id ?_ ?_
      (fun y hy => absurd hy List.not_mem_nil)
    · intro r hr
      refine hown _ _ _ _ (h.inv.calls r hr) fun e1 e2 e3 => ?_
      have := hb'.1 r hr
      simpa [e1, e2, e3] using this
    · intro y hy i b m hym
      refine hown _ _ _ _ (h.inv.parents y hy i b m hym) fun e1 e2 e3 => ?_
      have := hb'.2 y hy
      rw [hym, e1, e2, e3] at this
      simpa using this

/-! ### An iteration begins -/

/-- No more iterations are open than are running. -/
theorem open_le (hI : Inv w s) (hu : UnderWay s j a k x u) (iters : Nat) :
    Traffic.openIterations (abs s) j a iters ≤ Iterations.runs u.state.threads := by
  have hk := hI.jobs j k hu.1
  obtain ⟨hg, -⟩ := under_known hk hu
  have hlog : logAt s j a = u.state.log := by
    unfold logAt
    rw [hu.1]
    exact under_log hu.2.2
  unfold Traffic.openIterations
  rw [List.countP_eq_length_filter, ← Iterations.running_length,
    ← List.length_map (f := fun n : Int => number s j a n.toNat)]
  refine List.Nodup.length_le_of_subset ((List.nodup_range).filter _) ?_
  have key : ∀ m p, Owned s j a m p → ¬ p →
      number s j a m ∈ (Iterations.running u.state.threads).map fun n : Int => number s j a n.toNat := by
    intro m p ho hp
    refine List.mem_map.2 ⟨(m : Int), Iterations.running_mem ?_, by simp⟩
    have h1 := ho.2 hp
    rw [hlog] at h1
    have := hg.book.runOf m
    omega
  intro i hi
  obtain ⟨-, hi⟩ := List.mem_filter.1 hi
  unfold Traffic.busy at hi
  rw [Bool.or_eq_true, List.any_eq_true, List.any_eq_true] at hi
  rcases hi with ⟨c, hc, hcb⟩ | ⟨y, hy, hyb⟩
  · obtain ⟨r, hr, rfl⟩ := List.mem_map.1 hc
    simp only [Bool.and_eq_true, decide_eq_true_eq, Bool.not_eq_true', decide_eq_false_iff_not] at hcb
    obtain ⟨⟨⟨e1, e2⟩, e3⟩, e4⟩ := hcb
    have e1 : r.job = j := e1
    have e2 : r.action = a := e2
    have e3 : number s r.job r.action r.iter = i := e3
    have e4 : ¬ r.stage = .completed := e4
    have ho := hI.calls r hr
    rw [e1, e2] at ho e3
    rw [← e3]
    exact key _ _ ho e4
  · obtain ⟨z, hz, rfl⟩ := List.mem_map.1 hy
    simp only [Bool.and_eq_true, decide_eq_true_eq, Bool.not_eq_true'] at hyb
    obtain ⟨e1, e2⟩ := hyb
    have e1 : absParent s z.parent = .action j a i := e1
    have e2 : ¬ z.main.phase = .done := of_decide_eq_false e2
    cases hp : z.parent with
    | root => rw [hp] at e1; cases e1
    | call c => rw [hp] at e1; cases e1
    | action j' a' m =>
      rw [hp] at e1
      simp only [absParent, Traffic.Parent.action.injEq] at e1
      obtain ⟨rfl, rfl, e3⟩ := e1
      rw [← e3]
      exact key _ _ (hI.parents z hz _ _ _ hp) e2

theorem iters_params (hx : k.entry.listActions[a]? = some x) :
    itersOf k a = (k.params x u).limit.toNat := by
  unfold itersOf
  rw [hx]
  exact (params_eq x (fun _ => 0) u.since k.warmup).1

/-- The beginning of an iteration. -/
structure Fresh (w : Test) (s : State) (j a : Nat) (k : Job) (x : ActionEntry) (u : Under) (st : Iterations.State)
    (n : Int) (left : Nat) : Prop where
  old : absAct k a = .running (left + 1)
  new : absAct (k.goes a ⟨u.since, st⟩) a = .running left
  called : (k.main.acts a).called = false
  ok : JobOk w (k.goes a ⟨u.since, st⟩)
  free : ∀ fan, Traffic.openIterations (abs s) j a (toAction fan x).iters < (toAction fan x).parallel
  nonneg : 0 ≤ n
  unused : starts n u.state.log = 0
  unended : ends n u.state.log = 0
  number : itersOf k a - 1 - allStarts u.state.log = left

theorem fresh {st : Iterations.State} {n τ : Int} {b : Bool} (hI : Inv w s) (hu : UnderWay s j a k x u)
    (hw : Iterations.Work (k.params x u) u.state st) (hl : st.log = .started n b τ :: u.state.log) :
    ∃ left, Fresh w s j a k x u st n left := by
  have hk := hI.jobs j k hu.1
  obtain ⟨hg, h1, h2, h3, h4⟩ := under_known hk hu
  obtain ⟨g1, g2, g3, g4, g5⟩ := Iterations.good_started hg hw hl
  have hlog := under_log hu.2.2
  have hcalled : (k.main.acts a).called = false := by
    cases hc : (k.main.acts a).called with
    | false => rfl
    | true => have := h4.1 hc; omega
  have hit := iters_params (k := k) (u := u) hu.2.1
  have hb := hg.book.runOf n
  refine ⟨itersOf k a - 1 - allStarts u.state.log, ?_, ?_, hcalled, ?_, ?_, g1, g2, by omega, rfl⟩
  · unfold absAct
    rw [if_neg (by simp [h1]), if_neg (by simp [h2]), if_neg (by simp [hcalled]), hlog]
    congr 1
    omega
  · unfold absAct
    rw [goes_log, if_pos rfl]
    show (if (k.main.acts a).started = false then _ else if (k.main.acts a).skipped = true then _ else
      if (k.main.acts a).called = true then _ else _) = _
    rw [if_neg (by simp [h1]), if_neg (by simp [h2]), if_neg (by simp [hcalled]), hl]
    show Traffic.Act.running (itersOf k a - (1 + allStarts u.state.log)) = _
    congr 1
    omega
  · refine jobOk_goes hk hu.2.1 (Iterations.good_work hg hw) h1 h2 h3 ?_
    dsimp only
    rw [hl]
    exact h4
  · intro fan
    have h5 := open_le hI hu (toAction fan x).iters
    rw [(params_eq x fan u.since k.warmup).2.1]
    have : (Iterations.runs u.state.threads : Int) <
        if (Iterations.params x.proto u.since k.warmup).openLoop then
          (Iterations.params x.proto u.since k.warmup).limit
        else (Iterations.params x.proto u.since k.warmup).copies := g5
    omega

theorem work_fan {x : ActionEntry} (f g : Nat → Nat) :
    (∀ q m, toWork f x = .rpc q m → toWork g x = .rpc q (g q)) ∧
    (∀ l, toWork f x = .list l → toWork g x = .list l) ∧
    (toWork f x = .other → toWork g x = .other) := by
  unfold toWork
  split
  · exact ⟨fun _ _ hh => (by cases hh), fun _ hh => (by cases hh), fun _ => rfl⟩
  · split
    · exact ⟨fun _ _ hh => (by cases hh), fun _ hh => hh, fun hh => (by cases hh)⟩
    · split
      · exact ⟨fun _ _ hh => (by cases hh; rfl), fun _ hh => (by cases hh), fun hh => (by cases hh)⟩
      · exact ⟨fun _ _ hh => (by cases hh), fun _ hh => (by cases hh), fun _ => rfl⟩

/-- A new run as seen from outside. -/
theorem abs_opens {eng l : Nat} {p : Traffic.Parent} {y : Job} (h : Opens w eng l p y) (s : State)
    (fan : Nat → Nat) : absJob s y = Traffic.newJob (engineConfig w fan eng) eng l (absParent s p) := by
  obtain ⟨entry, draw, now, warmup, h1, rfl⟩ := h
  unfold absJob Traffic.newJob
  have h2 : (engineConfig w fan eng).actions l = entry.listActions.map (toAction fan) := by
    show (actionsOf (tablesOf w eng) l).map _ = _
    unfold actionsOf
    rw [h1]
    rfl
  rw [h2]
  congr 1
  · apply List.ext_getElem?
    intro i
    rw [List.getElem?_map, List.map_map, List.getElem?_map]
    dsimp only
    by_cases hi : i < entry.listActions.length
    · rw [List.getElem?_range hi, List.getElem?_eq_getElem hi]
      rfl
    · rw [List.getElem?_eq_none (by simpa using hi), List.getElem?_eq_none (by simpa using hi)]
      rfl
  · exact early_none fun i => rfl

theorem opens_fresh {eng l : Nat} {p : Traffic.Parent} {y : Job} (h : Opens w eng l p y) :
    (∀ b, y.under b = none) ∧ y.parent = p := by
  obtain ⟨entry, draw, now, warmup, h1, rfl⟩ := h
  exact ⟨fun _ => rfl, rfl⟩

/-- The step of the view. -/
theorem sim_iterate {st : Iterations.State} {n τ : Int} {b : Bool} {left : Nat} {targets : List Nat}
    {new : List Traffic.Call} (h : Sim w s ops t) (hu : UnderWay s j a k x u)
    (hl : st.log = .started n b τ :: u.state.log) (hF : Fresh w s j a k x u st n left)
    (hs' : s' = { jobs := s.jobs.set j (k.goes a ⟨u.since, st⟩) ++ ext, calls := s.calls ++ new })
    (hext : ∀ y ∈ ext, (∀ c, y.under c = none) ∧ JobOk w y ∧ y.parent = .action j a n.toNat)
    (hnew : ∀ r ∈ new, r.job = j ∧ r.action = a ∧ r.iter = n.toNat)
    (hch : Chosen w (abs s) (.iterate j a targets))
    (hst : (match (toAction (fun _ => targets.length) x).work with
          | .rpc q fan =>
            if targets.length = fan ∧ (targets.all fun t => (engineConfig w (fun _ => targets.length) k.engine).servers q t) then
              some (Traffic.State.mk [] ((abs s).calls ++ Traffic.newCalls q j a left targets))
            else none
          | .list l =>
            if targets = [] then
              some (Traffic.State.mk [Traffic.newJob (engineConfig w (fun _ => targets.length) k.engine) k.engine l (.action j a left)] (abs s).calls)
            else none
          | .other => if targets = [] then some (Traffic.State.mk [] (abs s).calls) else none) =
        some ⟨ext.map (absJob s'), (abs s).calls ++ new.map (absCall s')⟩) :
    Next w s ops s' := by
  have hlog := under_log hu.2.2
  have hk := h.inv.jobs j k hu.1
  have hupd : Upd s s' j k (k.goes a ⟨u.since, st⟩) ext := by
    rw [hs']
    refine upd_goes hu.1 ?_ fun y hy => (hext y hy).1
    intro m hm
    rw [hlog] at hm ⊢
    dsimp only
    rw [hl]
    exact Iterations.place_started hm hF.unused
  have hgrow : ∀ i c m p, Owned s i c m p → Owned s' i c m p := by
    intro i c m p ho
    unfold Owned
    rw [logAt_put hupd]
    split
    · rename_i hh
      obtain ⟨rfl, rfl⟩ := hh
      obtain ⟨o1, o2⟩ := ho
      rw [hupd.logAt_old, hlog] at o1 o2
      dsimp only
      rw [hl]
      simp only [starts, ends]
      refine ⟨by omega, fun hp => ?_⟩
      have := o2 hp
      omega
    · exact ho
  have hhere : ∀ p, Owned s' j a n.toNat p := by
    intro p
    have e := Int.toNat_of_nonneg hF.nonneg
    unfold Owned
    rw [logAt_put hupd, if_pos ⟨rfl, rfl⟩]
    dsimp only
    rw [hl, e]
    have e1 : starts n (.started n b τ :: u.state.log) = 1 := by
      simp only [starts, if_true, hF.unused]
    have e2 : ends n (.started n b τ :: u.state.log) = 0 := hF.unended
    rw [e1, e2]
    exact ⟨Nat.one_pos, fun _ => Nat.one_pos⟩
  have hInv : Inv w s' := by
    refine hupd.inv h.inv hF.ok (fun y hy => (hext y hy).2.1) id ?_ ?_ ?_
    · intro r hr
      rw [hs'] at hr
      rcases List.mem_append.1 hr with hr | hr
      · exact hgrow _ _ _ _ (h.inv.calls r hr)
      · obtain ⟨e1, e2, e3⟩ := hnew r hr
        rw [e1, e2, e3]
        exact hhere _
    · intro y hy i c m hym
      exact hgrow _ _ _ _ (h.inv.parents y hy i c m hym)
    · intro y hy i c m hym
      rw [(hext y hy).2.2] at hym
      cases hym
      exact hhere _
  have habs : abs s' = ⟨(abs s).jobs.set j { absJob s k with acts := (absJob s k).acts.set a (.running left) } ++
      ext.map (absJob s'), (abs s).calls ++ new.map (absCall s')⟩ := by
    show Traffic.State.mk (s'.jobs.map _) (s'.calls.map _) = _
    congr 1
    · rw [hupd.abs_jobs h.inv, acts_set (k := k) (a := a) (fun c hc => goes_act k _ hc), hF.new]
      rfl
    · rw [show s'.calls = s.calls ++ new by rw [hs'], List.map_append, hupd.abs_calls h.inv]
      rfl
  have hstep : Traffic.step (engineConfig w (fun _ => targets.length) k.engine) (abs s) (.iterate j a targets) =
      some (abs s') := by
    unfold Traffic.step
    dsimp only
    rw [abs_get hu.1]
    dsimp only
    rw [show (absJob s k).list = k.list from rfl, engine_entries hk.entry, List.getElem?_map, hu.2.1,
      Option.map_some, acts_get hu.2.1, hF.old]
    dsimp only
    rw [if_pos (hF.free _), habs]
    revert hst
    generalize ext.map (absJob s') = A
    generalize new.map (absCall s') = B
    intro hst
    split at hst
    · rename_i hwk
      rw [hwk]
      dsimp only
      split at hst
      · rename_i hc
        rw [if_pos hc]
        injection hst with hst
        injection hst with e1 e2
        rw [← e1, e2, List.append_nil]
        rfl
      · cases hst
    · rename_i hwk
      rw [hwk]
      dsimp only
      split at hst
      · rename_i hc
        rw [if_pos hc]
        injection hst with hst
        injection hst with e1 e2
        rw [← e1, ← e2]
        rfl
      · cases hst
    · rename_i hwk
      rw [hwk]
      dsimp only
      split at hst
      · rename_i hc
        rw [if_pos hc]
        injection hst with hst
        injection hst with e1 e2
        rw [← e1, ← e2, List.append_nil]
        rfl
      · cases hst
  refine ⟨ops ++ [.base (.iterate j a targets)], { t with base := abs s' }, ⟨?_, rfl, ?_, ?_, hInv⟩,
    .inr (more_steps _ fun _ _ hh => by cases hh)⟩
  · refine .step _ h.runs ⟨?_, ?_⟩
    · rw [h.base]; exact hch
    · rw [h.base, engineOf_job hu.1 ⟨a, .inr (.inr (.inr (.inr ⟨targets, rfl⟩)))⟩]
      show Traffic.tstep (engineConfig w (fun _ => targets.length) k.engine) t _ = _
      rw [Traffic.tstep, if_pos, h.base, hstep]
      · rfl
      · unfold Traffic.inTime
        dsimp only
        rw [h.base, abs_get hu.1]
        dsimp only
        rw [show (absJob s k).list = k.list from rfl, engine_entries hk.entry, List.getElem?_map, hu.2.1,
          Option.map_some, acts_get hu.2.1, hF.old]
        dsimp only
        rw [Bool.or_eq_true]
        left
        cases hlt : t.late j a with
        | false => rfl
        | true =>
          obtain ⟨y, y1, y2⟩ := h.late j a hlt
          rw [hu.1] at y1
          cases y1
          rw [hF.called] at y2
          cases y2
  · intro i c hlt
    obtain ⟨y, y1, y2⟩ := h.late i c hlt
    exact late_put hu.1 hupd (fun _ hb => hb) i c y y1 y2
  · intro i c
    unfold timedIterations
    rw [List.countP_append]
    have hc := h.count i c
    unfold timedIterations at hc
    rw [hc, logAt_put hupd, List.countP_cons, List.countP_nil]
    by_cases hh : i = j ∧ c = a
    · rw [if_pos hh, hh.1, hh.2, hupd.logAt_old, hlog]
      dsimp only
      rw [hl]
      simp only [allStarts, beq_self_eq_true, Bool.and_self, if_true]
      omega
    · rw [if_neg hh, if_neg]
      · rfl
      · intro hh'
        have hh' : (j == i && a == c) = true := hh'
        rw [Bool.and_eq_true, beq_iff_eq, beq_iff_eq] at hh'
        exact hh ⟨hh'.1.symm, hh'.2.symm⟩

/-- The number of the new iteration. -/
theorem number_new {st : Iterations.State} {n τ : Int} {b : Bool} {left : Nat}
    (hl : st.log = .started n b τ :: u.state.log) (hF : Fresh w s j a k x u st n left)
    (hg : s'.jobs[j]? = some (k.goes a ⟨u.since, st⟩)) : number s' j a n.toNat = left := by
  unfold number
  rw [hg]
  dsimp only
  rw [goes_log, if_pos rfl, Int.toNat_of_nonneg hF.nonneg]
  dsimp only
  rw [hl]
  simp only [Iterations.place, if_pos rfl]
  exact hF.number

theorem chosen_other {targets : List Nat} (hk : JobOk w k) (hu : UnderWay s j a k x u)
    (hp : ∀ q f, toWork (fun _ => 0) x = .rpc q f → Picks w k.engine x targets) :
    Chosen w (abs s) (.iterate j a targets) := by
  intro job y h1 h2 h3
  rw [abs_get hu.1] at h1
  cases h1
  have h2 : (actionsOf (tablesOf w k.engine) k.list)[a]? = some y := h2
  rw [actions_entry hk.entry, hu.2.1] at h2
  cases h2
  obtain ⟨q, f, h3⟩ := h3
  exact hp q f h3

theorem get_set {l : List Job} {y : Job} (hj : l[j]? = some k) (ext : List Job) :
    (l.set j y ++ ext)[j]? = some y := by
  have hlt := (List.getElem?_eq_some_iff.1 hj).1
  rw [List.getElem?_append_left (by rw [List.length_set]; exact hlt), List.getElem?_set_self hlt]

theorem sim_rpcs {e : Env} {fan : Str → Nat} {st : Iterations.State} {n τ : Int} {b : Bool} {q f : Nat}
    {targets : List Nat} (hs : SoundTest e w) (hf : FanOuts w.cfg fan) (h : Sim w s ops t)
    (hu : UnderWay s j a k x u) (hw : Iterations.Work (k.params x u) u.state st)
    (hl : st.log = .started n b τ :: u.state.log) (hq : toWork (fun _ => 0) x = .rpc q f)
    (hp : Picks w k.engine x targets) :
    Next w s ops { s.put j (k.goes a ⟨u.since, st⟩) with
        calls := s.calls ++ Traffic.newCalls q j a n.toNat targets } := by
  obtain ⟨left, hF⟩ := fresh h.inv hu hw hl
  have hk := h.inv.jobs j k hu.1
  refine sim_iterate (ext := []) (new := Traffic.newCalls q j a n.toNat targets) (targets := targets) h hu hl hF ?_
    (fun y hy => absurd hy List.not_mem_nil) ?_ (chosen_other hk hu fun _ _ _ => hp) ?_
  · rw [List.append_nil]; rfl
  · intro r hr
    obtain ⟨_, -, rfl⟩ := List.mem_map.1 hr
    exact ⟨rfl, rfl, rfl⟩
  · rw [show (toAction (fun _ => targets.length) x).work = .rpc q targets.length from
      (work_fan (fun _ => 0) (fun _ => targets.length)).1 q f hq]
    dsimp only
    rw [if_pos]
    · congr 3
      unfold Traffic.newCalls
      rw [List.map_map]
      refine List.map_congr_left fun τ' _ => ?_
      simp only [Function.comp, absCall]
      rw [number_new hl hF]
      have := get_set (y := k.goes a ⟨u.since, st⟩) hu.1 []
      rw [List.append_nil] at this
      exact this
    · refine ⟨rfl, ?_⟩
      rw [List.all_eq_true]
      intro τ' hτ
      obtain ⟨place, own, grid, r, d, ts, p1, p2, -⟩ := id hp
      have hsv : HasService w k.engine := ⟨place.1, own, by unfold serviceOf; rw [p1]; rfl, p2⟩
      rw [engine_servers hs hsv _ (fanAt w.cfg fan)]
      exact (picks_global hs hf (entry_zero hs hk.entry hu.2.1) hq hp).2 τ' hτ

theorem sim_list {st : Iterations.State} {n τ : Int} {b : Bool} {l : Nat} (h : Sim w s ops t)
    (hu : UnderWay s j a k x u) (hw : Iterations.Work (k.params x u) u.state st)
    (hl : st.log = .started n b τ :: u.state.log) (hq : toWork (fun _ => 0) x = .list l)
    (ho : Opens w k.engine l (.action j a n.toNat) k') :
    Next w s ops { s with jobs := s.jobs.set j (k.goes a ⟨u.since, st⟩) ++ [k'] } := by
  obtain ⟨left, hF⟩ := fresh h.inv hu hw hl
  have hk := h.inv.jobs j k hu.1
  refine sim_iterate (ext := [k']) (new := []) (targets := []) h hu hl hF ?_ ?_
    (fun r hr => absurd hr List.not_mem_nil)
    (chosen_other hk hu fun q f hh => by rw [hq] at hh; cases hh) ?_
  · rw [List.append_nil]
  · intro y hy
    rw [List.mem_singleton.1 hy]
    exact ⟨(opens_fresh ho).1, opens_ok ho, (opens_fresh ho).2⟩
  · rw [show (toAction (fun _ => ([] : List Nat).length) x).work = .list l from
      (work_fan (fun _ => 0) (fun _ => ([] : List Nat).length)).2.1 l hq]
    dsimp only
    rw [if_pos rfl, List.map_cons, List.map_nil, List.map_nil, List.append_nil,
      abs_opens ho _ (fun _ => ([] : List Nat).length)]
    simp only [absParent]
    rw [number_new hl hF]
    exact get_set hu.1 [k']

theorem sim_other {st : Iterations.State} {n τ : Int} {b : Bool} (h : Sim w s ops t)
    (hu : UnderWay s j a k x u) (hw : Iterations.Work (k.params x u) u.state st)
    (hl : st.log = .started n b τ :: u.state.log) (hq : toWork (fun _ => 0) x = .other) :
    Next w s ops (s.put j (k.goes a ⟨u.since, st⟩)) := by
  obtain ⟨left, hF⟩ := fresh h.inv hu hw hl
  have hk := h.inv.jobs j k hu.1
  refine sim_iterate (ext := []) (new := []) (targets := []) h hu hl hF ?_
    (fun y hy => absurd hy List.not_mem_nil) (fun r hr => absurd hr List.not_mem_nil)
    (chosen_other hk hu fun q f hh => by rw [hq] at hh; cases hh) ?_
  · rw [List.append_nil, List.append_nil]; rfl
  · rw [show (toAction (fun _ => ([] : List Nat).length) x).work = .other from
      (work_fan (fun _ => 0) (fun _ => ([] : List Nat).length)).2.2 hq]
    dsimp only
    rw [if_pos rfl, List.map_nil, List.map_nil, List.append_nil]

end Distbench.Loops
