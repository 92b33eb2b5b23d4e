import Verif.Lemmas.LoopsAct

/-! The traffic of Model/Loops.lean as seen from outside is that of Model/WholeTime.lean: the ends of
actions, the way of RPCs, and the whole test. -/

namespace Distbench.Loops
open Tables Services Whole Spec

variable {w : Test} {s s' : State} {j a : Nat} {k k' : Job} {ext : List Job} {ops : List Traffic.TOp}
  {t : Traffic.TState} {x : ActionEntry} {u u' : Under}

/-! ### An action ends -/

/-- A list with an action that has not ended is not over. -/
theorem not_done (hk : JobOk w k) (h1 : (k.main.acts a).started = true) (h2 : (k.main.acts a).called = false) :
    k.main.phase ≠ .done := by
  intro hd
  have h := hk.main
  rw [ActionList.Inv, if_pos hd] at h
  obtain ⟨s0, hp0, h0, hs0, hacts, hlog, hcn⟩ := h
  rw [hacts] at h1 h2
  rw [h0.closed_called a (h0.fin_closed a ((hs0.exit hp0).1 a h1))] at h2
  cases h2

/-- The steps of the view when an action ends. -/
theorem view_done {L : Nat} (h : Sim w s ops t) (hu : UnderWay s j a k x u) (hold : absAct k a = .running L)
    (hc : (k.main.acts a).called = false) (hopen : ∀ iters, Traffic.openIterations (abs s) j a iters = 0)
    (hz : (toAction (fun _ => 0) x).timed = none → L = 0)
    (hf : (toAction (fun _ => 0) x).timed ≠ none →
      (toAction (fun _ => 0) x).timed.getD 0 ≤ (toAction (fun _ => 0) x).iters - L) :
    ∃ ops' late', TRuns w ops'
      { base :=
          { jobs := (abs s).jobs.set j { absJob s k with acts := (absJob s k).acts.set a .finished }
            calls := if (absJob s k).early = some a then Traffic.answer (abs s).calls (absJob s k).parent
              else (abs s).calls }
        late := late' } ∧
      (∀ i b, late' i b = true → (i = j ∧ b = a) ∨ t.late i b = true) ∧
      (∀ i b, timedIterations ops' i b = timedIterations ops i b) ∧ timedSteps ops < timedSteps ops' := by
  have hk := h.inv.jobs j k hu.1
  have hnotlate : t.late j a = false := by
    cases hlt : t.late j a with
    | false => rfl
    | true =>
      obtain ⟨y, y1, y2⟩ := h.late j a hlt
      rw [hu.1] at y1
      cases y1
      rw [hc] at y2
      cases y2
  have hacts : ((engineConfig w (fun _ => 0) k.engine).actions k.list)[a]? = some (toAction (fun _ => 0) x) := by
    rw [engine_entries hk.entry, List.getElem?_map, hu.2.1]
    rfl
  have hcnt : ∀ (op : Traffic.TOp) (i b : Nat), (∀ i' b' ts, op ≠ .base (.iterate i' b' ts)) → ∀ l,
      timedIterations (l ++ [op]) i b = timedIterations l i b := by
    intro op i b hop l
    unfold timedIterations
    rw [List.countP_append]
    cases op with
    | base o => cases o <;> first | rfl | exact absurd rfl (hop _ _ _)
    | _ => rfl
  cases hT : (toAction (fun _ => 0) x).timed with
  | none =>
    have hL := hz hT
    subst hL
    refine ⟨ops ++ [.base (.finish j a)], t.late, ?_, fun i b hb => .inr hb, ?_,
      more_steps _ fun _ _ hh => by cases hh⟩
    · refine .step _ h.runs ⟨trivial, ?_⟩
      rw [h.base, engineOf_job hu.1 ⟨a, .inr (.inr (.inl rfl))⟩]
      show Traffic.tstep (engineConfig w (fun _ => 0) k.engine) t _ = _
      rw [Traffic.tstep, if_pos (show Traffic.inTime (engineConfig w (fun _ => 0) k.engine) t (.finish j a) = true from rfl),
        h.base]
      unfold Traffic.step
      dsimp only
      rw [abs_get hu.1]
      dsimp only
      rw [show (absJob s k).list = k.list from rfl, hacts, acts_get hu.2.1, hold]
      show Option.map _ (if Traffic.openIterations (abs s) j a (toAction (fun _ => 0) x).iters = 0 then _ else none) = _
      rw [if_pos (hopen _)]
      rfl
    · intro i b
      exact hcnt _ i b (fun _ _ _ hh => by cases hh) ops
  | some m =>
    have hne : (toAction (fun _ => 0) x).timed ≠ none := by rw [hT]; simp
    have hrun : runner t.base j = k.engine := by
      unfold runner
      rw [h.base, abs_get hu.1]
      rfl
    refine ⟨ops ++ [.late j a] ++ [.stop j a], fun i b => (i == j && b == a) || t.late i b, ?_, ?_, ?_, ?_⟩
    · have h1 : TRuns w (ops ++ [.late j a]) { t with late := fun i b => (i == j && b == a) || t.late i b } := by
        refine .step _ h.runs ?_
        show Traffic.tstep (engineConfig w (fun _ => 0) (runner t.base j)) t _ = _
        rw [hrun]
        unfold Traffic.tstep
        dsimp only
        rw [h.base, abs_get hu.1]
        dsimp only
        rw [show (absJob s k).list = k.list from rfl, hacts, acts_get hu.2.1, hold]
        dsimp only
        rw [if_pos ⟨hne, hnotlate⟩]
      refine .step _ h1 ?_
      show Traffic.tstep (engineConfig w (fun _ => 0) (runner t.base j)) _ _ = _
      rw [hrun]
      unfold Traffic.tstep
      dsimp only
      rw [h.base, abs_get hu.1]
      dsimp only
      rw [show (absJob s k).list = k.list from rfl, hacts, acts_get hu.2.1, hold]
      dsimp only
      rw [if_pos ⟨by simp, hopen _, hf hne⟩]
    · intro i b hb
      simp only [Bool.or_eq_true, Bool.and_eq_true, beq_iff_eq] at hb
      exact hb
    · intro i b
      rw [hcnt _ i b (fun _ _ _ hh => by cases hh), hcnt _ i b (fun _ _ _ hh => by cases hh)]
    · refine Nat.lt_of_le_of_lt ?_ (more_steps (ops := ops ++ [.late j a]) (.stop j a) fun _ _ hh => by cases hh)
      unfold timedSteps
      rw [List.countP_append]
      exact Nat.le_add_right _ _

theorem sim_allDone {e : Env} {cfg : Traffic.Config} {st : Iterations.State} (hs : SoundTest e w)
    (hp : LoopTest w.cfg) (h : Sim w s ops t)
    (hT : Traffic.Inv cfg (fun _ => False) (abs s)) (hu : UnderWay s j a k x u)
    (hw : Iterations.Work (k.params x u) u.state st) (hl : st.log = .allDone :: u.state.log) :
    Next w s ops
        { jobs := s.jobs.set j
            { k.goes a ⟨u.since, st⟩ with main := ActionList.callback (k.ctx w) a k.main }
          calls := respond k.main (ActionList.callback (k.ctx w) a k.main) k.parent s.calls } := by
  have hk := h.inv.jobs j k hu.1
  obtain ⟨hg, h1, h2, h3, h4⟩ := under_known hk hu
  obtain ⟨g1, g2, g3, g4⟩ := Iterations.good_done hg hw hl
  have hlog := under_log hu.2.2
  have hlt : a < k.entry.listActions.length := (List.getElem?_eq_some_iff.1 hu.2.1).1
  have hcalled : (k.main.acts a).called = false := by
    cases hc : (k.main.acts a).called with
    | false => rfl
    | true => have := h4.1 hc; omega
  have hnd := not_done hk h1 hcalled
  have hsend := (early_known hk hnd).2 a
  have hold : absAct k a = .running (itersOf k a - allStarts u.state.log) := by
    unfold absAct
    rw [if_neg (by simp [h1]), if_neg (by simp [h2]), if_neg (by simp [hcalled]), hlog]
  have hit := iters_params (k := k) (u := u) hu.2.1
  have hiter : (toAction (fun _ => 0) x).iters = itersOf k a := by
    unfold itersOf
    rw [hu.2.1]
  have hP := params_eq x (fun _ => 0) u.since k.warmup
  have hg3 : (Iterations.params x.proto u.since k.warmup).timeLimit = .future →
      (allStarts u.state.log : Int) = (Iterations.params x.proto u.since k.warmup).limit := g3
  have hg4 : (if (Iterations.params x.proto u.since k.warmup).openLoop then 1
      else (Iterations.params x.proto u.since k.warmup).copies) ≤ (allStarts u.state.log : Int) := g4
  have hit' : itersOf k a = (Iterations.params x.proto u.since k.warmup).limit.toNat := hit
  -- no more have begun than there may be
  have hle : allStarts u.state.log ≤ itersOf k a := by
    rw [hit]
    exact Iterations.good_bound hg
  obtain ⟨ops', late', r1, r2, r3, r4⟩ := view_done h hu hold hcalled
    (fun iters => by have := open_le h.inv hu iters; omega)
    (fun hn => by have := hg3 (hP.2.2.1 hn); omega)
    (fun hn => by
      rw [hP.2.2.2 hn, hiter]
      omega)
  have hkeep : ∀ b, b ≠ a → (ActionList.callback (k.ctx w) a k.main).acts b = k.main.acts b := by
    intro b hb
    rw [ActionList.callback_acts, if_neg hb]
  have hself : (ActionList.callback (k.ctx w) a k.main).acts a = { k.main.acts a with called := true } := by
    rw [ActionList.callback_acts, if_pos rfl]
  have hsender : ∀ b, ((ActionList.callback (k.ctx w) a k.main).acts b).sender = (k.main.acts b).sender := by
    intro b
    by_cases hb : b = a
    · subst hb; rw [hself]
    · rw [hkeep b hb]
  obtain ⟨K, hK⟩ : ∃ K, K = { k.goes a ⟨u.since, st⟩ with main := ActionList.callback (k.ctx w) a k.main } := ⟨_, rfl⟩
  rw [← hK]
  have hKlog : ∀ b, logOf K b = if b = a then st.log else logOf k b := by
    intro b
    rw [hK]
    exact goes_log k a ⟨u.since, st⟩ b
  have hKmain : K.main = ActionList.callback (k.ctx w) a k.main := by rw [hK]
  have hKunder : K.under = (k.goes a ⟨u.since, st⟩).under := by rw [hK]
  have hresp := respond_if (p := k.parent) (calls := s.calls) (ActionList.callback_log (k.ctx w) a k.main)
  rw [hresp]
  obtain ⟨C, hC⟩ : ∃ C, C = if (k.main.acts a).sender = true then Traffic.answer s.calls k.parent else s.calls :=
    ⟨_, rfl⟩
  rw [← hC]
  have hupd : Upd s { jobs := s.jobs.set j K, calls := C } j k K [] := by
    refine ⟨hu.1, (List.append_nil _).symm, by rw [hK]; rfl, by rw [hK]; rfl, by rw [hK]; rfl, by rw [hK]; rfl,
      (fun y hy => absurd hy List.not_mem_nil), ?_⟩
    intro b n hn
    rw [hKlog]
    split
    · rename_i hb
      rw [hb, hlog, hl]
      rfl
    · rfl
  have hlogs : ∀ i b, logAt { jobs := s.jobs.set j K, calls := C } i b =
      if i = j ∧ b = a then st.log else logAt s i b := by
    intro i b
    by_cases hi : i = j
    · subst hi
      rw [hupd.logAt_same, hupd.logAt_old, hKlog]
      by_cases hb : b = a
      · rw [if_pos hb, if_pos ⟨rfl, hb⟩]
      · rw [if_neg hb, if_neg (fun hh => hb hh.2)]
    · rw [if_neg (fun hh => hi hh.1)]
      exact hupd.logAt_other hi b
  have hown : ∀ i b m p, Owned s i b m p → Owned { jobs := s.jobs.set j K, calls := C } i b m p := by
    intro i b m p ho
    unfold Owned
    rw [hlogs]
    split
    · rename_i hh
      obtain ⟨rfl, rfl⟩ := hh
      unfold Owned at ho
      rw [hupd.logAt_old, hlog] at ho
      rw [hl]
      exact ho
    · exact ho
  have hok : JobOk w K := by
    refine ⟨by rw [hK]; exact hk.entry, ?_, ?_, ?_, ?_⟩
    · have := ActionList.inv_env hk.main (.callback (c := k.ctx w) a hlt h1 h3 hcalled (no_activity hs hp hk.entry a))
      rw [hK]
      exact this
    · rw [hKmain]
      exact ActionList.callback_live _ _ _ hk.live (no_cancel hs hp hk.entry a)
    · intro b v hv
      rw [hKunder] at hv
      by_cases hb : b = a
      · subst hb
        rw [show (k.goes b ⟨u.since, st⟩).under b = some ⟨u.since, st⟩ from if_pos rfl] at hv
        cases hv
        refine ⟨x, by rw [hK]; exact hu.2.1, by rw [hK]; exact Iterations.good_work hg hw, ?_⟩
        rw [hKmain, hself]
        refine ⟨h1, h2, h3, ?_⟩
        dsimp only
        rw [hl]
        exact ⟨fun _ => Nat.lt_of_lt_of_le Nat.one_pos (Nat.le_add_right 1 _), fun _ => rfl⟩
      · rw [show (k.goes a ⟨u.since, st⟩).under b = k.under b from if_neg hb] at hv
        obtain ⟨y, q1, q2, q3⟩ := hk.under b v hv
        refine ⟨y, by rw [hK]; exact q1, by rw [hK]; exact q2, ?_⟩
        rw [hKmain, hkeep b hb]
        exact q3
    · intro b hb
      rw [hKunder]
      by_cases hba : b = a
      · right
        rw [show (k.goes a ⟨u.since, st⟩).under b = some ⟨u.since, st⟩ from if_pos hba]
        exact fun hh => by cases hh
      · rw [show (k.goes a ⟨u.since, st⟩).under b = k.under b from if_neg hba]
        rw [hKmain, hkeep b hba] at hb ⊢
        exact hk.called b hb
  have hInv : Inv w { jobs := s.jobs.set j K, calls := C } := by
    refine hupd.inv h.inv hok (fun y hy => absurd hy List.not_mem_nil) ?_ ?_ ?_
      (fun y hy => absurd hy List.not_mem_nil)
    · intro hd
      exact absurd hd hnd
    · intro r hr
      have hsrc : ∃ r0 ∈ s.calls, r.job = r0.job ∧ r.action = r0.action ∧ r.iter = r0.iter ∧
          (r0.stage = .completed → r.stage = .completed) := by
        have hr : r ∈ C := hr
        rw [hC] at hr
        split at hr
        · rename_i hse
          refine respond_calls hT hu.1 ⟨by show decide _ = false; simp [hnd], ?_⟩ r hr
          intro b y hb hy
          rw [show (absJob s k).early = earlyOf k from rfl, hsend.1 hse] at hb
          cases hb
          rw [acts_get hu.2.1, hold] at hy
          cases hy
          rfl
        · exact same_calls r hr
      obtain ⟨r0, q0, e1, e2, e3, e4⟩ := hsrc
      rw [e1, e2, e3]
      exact hown _ _ _ _ ((h.inv.calls r0 q0).mono e4)
    · intro y hy i b m hym
      exact hown _ _ _ _ (h.inv.parents y hy i b m hym)
  refine ⟨ops', _, ⟨r1, ?_, ?_, ?_, hInv⟩, .inr r4⟩
  · dsimp only
    show _ = Traffic.State.mk _ _
    congr 1
    · rw [hupd.abs_jobs h.inv, List.map_nil, List.append_nil]
      rw [acts_set (k := k) (a := a) (n := k.entry.listActions.length) fun b hb => by
        have hKe : K.entry = k.entry := by rw [hK]; rfl
        unfold absAct
        rw [hKlog, if_neg hb, hKmain, hkeep b hb, itersOf_entry hKe]]
      have e1 : absAct K a = .finished := by
        unfold absAct
        rw [hKmain, hself]
        dsimp only
        rw [if_neg (by simp [h1]), if_neg (by simp [h2]), if_pos rfl]
      have e2 : earlyOf K = earlyOf k := by
        unfold earlyOf
        rw [show K.entry = k.entry by rw [hK]; rfl]
        congr 1
        funext b
        rw [hKmain, hsender]
      have e3 : decide (K.main.phase = .done) = decide (k.main.phase = .done) := by
        rw [hKmain, ActionList.callback_phase]
      rw [e1, e2, e3]
      rfl
    · have he : (absJob s k).early = some a ↔ (k.main.acts a).sender = true := hsend.symm
      by_cases hse : (k.main.acts a).sender = true
      · rw [if_pos (he.2 hse)]
        rw [if_pos hse] at hC
        rw [hC] at hupd ⊢
        exact (answer_abs hupd h.inv _).symm
      · rw [if_neg (fun hh => hse (he.1 hh))]
        rw [if_neg hse] at hC
        rw [hC] at hupd ⊢
        exact (hupd.abs_calls h.inv).symm
  · intro i b hb
    rcases r2 i b hb with ⟨rfl, rfl⟩ | hb
    · refine ⟨K, hupd.get, ?_⟩
      rw [hKmain, hself]
    · obtain ⟨y, y1, y2⟩ := h.late i b hb
      refine late_put hu.1 hupd (fun c hc => ?_) i b y y1 y2
      by_cases hca : c = a
      · subst hca; rw [hKmain, hself]
      · rw [hKmain, hkeep c hca]; exact hc
  · intro i b
    rw [r3, h.count, hlogs]
    split
    · rename_i hh
      rw [hh.1, hh.2, hupd.logAt_old, hlog, hl]
      rfl
    · rfl

/-- The list takes note of the end of an action. -/
theorem sim_finish (h : Sim w s ops t) (hj : s.jobs[j]? = some k) (ha : a < k.entry.listActions.length)
    (hc : (k.main.acts a).called = true) (hcl : (k.main.acts a).closed = false) :
    Next w s ops (s.put j { k with main := ActionList.finishAction a k.main }) := by
  have hk := h.inv.jobs j k hj
  have hu := upd_main (m := ActionList.finishAction a k.main) hj s.calls
  have hact : ∀ b, ((ActionList.finishAction a k.main).acts b).started = (k.main.acts b).started ∧
      ((ActionList.finishAction a k.main).acts b).skipped = (k.main.acts b).skipped ∧
      ((ActionList.finishAction a k.main).acts b).called = (k.main.acts b).called ∧
      ((ActionList.finishAction a k.main).acts b).sender = (k.main.acts b).sender ∧
      ((ActionList.finishAction a k.main).acts b).stuck = (k.main.acts b).stuck := by
    intro b
    rw [ActionList.finish_acts]
    split
    · rename_i hb
      rw [hb]
      exact ⟨rfl, rfl, rfl, rfl, rfl⟩
    · exact ⟨rfl, rfl, rfl, rfl, rfl⟩
  show Next w s ops { jobs := s.jobs.set j { k with main := ActionList.finishAction a k.main }, calls := s.calls }
  refine sim_stutter h ?_ (late_main hj fun b hb => by rw [(hact b).2.2.1]; exact hb)
    (fun i b => by rw [log_main hj]) ?_
  · unfold abs
    congr 1
    · rw [hu.abs_jobs h.inv, List.map_nil, List.append_nil]
      rw [acts_same (k := k) fun b => absAct_main (hact b).1 (hact b).2.1 (hact b).2.2.1]
      have h1 : earlyOf { k with main := ActionList.finishAction a k.main } = earlyOf k := by
        unfold earlyOf
        congr 1
        funext i
        exact (hact i).2.2.2.1
      rw [h1]
      exact set_same (abs_get hj)
    · exact hu.abs_calls h.inv
  · refine hu.inv_same h.inv (fun _ => rfl) ?_ (fun y hy => absurd hy List.not_mem_nil) id same_calls
      (fun y hy => absurd hy List.not_mem_nil)
    refine ⟨hk.entry, ActionList.inv_env hk.main (.finish (c := k.ctx w) a ha hc hcl), hk.live, ?_, ?_⟩
    · intro b v hv
      obtain ⟨y, q1, q2, q3, q4, q5, q6⟩ := hk.under b v hv
      refine ⟨y, q1, q2, ?_, ?_, ?_, ?_⟩
      · dsimp only; rw [(hact b).1]; exact q3
      · dsimp only; rw [(hact b).2.1]; exact q4
      · dsimp only; rw [(hact b).2.2.2.2]; exact q5
      · dsimp only; rw [(hact b).2.2.1]; exact q6
    · intro b hb
      dsimp only at hb ⊢
      rw [(hact b).2.2.1] at hb
      rw [(hact b).2.1]
      exact hk.called b hb

/-! ### The way of an RPC -/

theorem calls_get {c : Nat} {call : Traffic.Call} (hc : s.calls[c]? = some call) :
    (abs s).calls[c]? = some (absCall s call) := by
  show (s.calls.map _)[c]? = _
  rw [List.getElem?_map, hc]
  rfl

theorem inv_calls {calls : List Traffic.Call} (hI : Inv w s)
    (hc : ∀ r ∈ calls, ∃ r0 ∈ s.calls, r.job = r0.job ∧ r.action = r0.action ∧
      r.iter = r0.iter ∧ (r0.stage = .completed → r.stage = .completed)) :
    Inv w { s with calls := calls } := by
  refine ⟨hI.jobs, ?_, hI.parents⟩
  intro r hr
  obtain ⟨r0, h0, e1, e2, e3, e4⟩ := hc r hr
  rw [e1, e2, e3]
  exact (hI.calls r0 h0).mono e4

theorem set_calls {c : Nat} {call : Traffic.Call} {stage : Traffic.Stage} (hc : s.calls[c]? = some call)
    (hst : call.stage ≠ .completed) : ∀ r ∈ s.calls.set c { call with stage := stage }, ∃ r0 ∈ s.calls,
      r.job = r0.job ∧ r.action = r0.action ∧ r.iter = r0.iter ∧ (r0.stage = .completed → r.stage = .completed) := by
  intro r hr
  rcases List.mem_or_eq_of_mem_set hr with hr | rfl
  · exact same_calls r hr
  · exact ⟨call, List.mem_of_getElem? hc, rfl, rfl, rfl, fun hh => absurd hh hst⟩

theorem abs_set {c : Nat} {call : Traffic.Call} {stage : Traffic.Stage} :
    (abs s).calls.set c { absCall s call with stage := stage } =
      (s.calls.set c { call with stage := stage }).map (absCall s) := by
  rw [List.map_set]
  rfl

theorem engineOf_call {op : Traffic.Op} {c : Nat} {call : Traffic.Call} (hc : s.calls[c]? = some call)
    (hop : op = .deliver c ∨ op = .dispatch c ∨ op = .complete c) : engineOf (abs s) op = call.target := by
  obtain rfl | rfl | rfl := hop <;>
    · unfold engineOf
      dsimp only
      rw [calls_get hc]
      rfl

theorem sim_deliver {c : Nat} {call : Traffic.Call} (h : Sim w s ops t) (hc : s.calls[c]? = some call)
    (hst : call.stage = .sent) :
    Next w s ops { s with calls := s.calls.set c { call with stage :=
        if (handlerOf (tablesOf w call.target) call.rpc).isSome then .queued else .answered } } := by
  refine sim_base (op := .deliver c) h trivial (engineOf_call hc (.inl rfl)) ?_ (fun i b y h1 h2 => ⟨y, h1, h2⟩)
    (fun _ _ => rfl) (inv_calls h.inv (set_calls hc (by rw [hst]; simp)))
  unfold Traffic.step
  dsimp only
  rw [calls_get hc]
  dsimp only
  rw [if_pos (show (absCall s call).stage = .sent from hst)]
  show (match handlerOf (tablesOf w call.target) call.rpc with | none => _ | some _ => _) = _
  cases handlerOf (tablesOf w call.target) call.rpc with
  | none =>
    dsimp only
    congr 1
    show _ = Traffic.State.mk _ _
    congr 1
    exact abs_set
  | some l =>
    dsimp only
    congr 1
    show _ = Traffic.State.mk _ _
    congr 1
    exact abs_set

theorem sim_complete {c : Nat} {call : Traffic.Call} (h : Sim w s ops t) (hc : s.calls[c]? = some call)
    (hst : call.stage = .answered) :
    Next w s ops { s with calls := s.calls.set c { call with stage := .completed } } := by
  refine sim_base (op := .complete c) h trivial (engineOf_call hc (.inr (.inr rfl))) ?_
    (fun i b y h1 h2 => ⟨y, h1, h2⟩) (fun _ _ => rfl) (inv_calls h.inv (set_calls hc (by rw [hst]; simp)))
  unfold Traffic.step
  dsimp only
  rw [calls_get hc]
  dsimp only
  rw [if_pos (show (absCall s call).stage = .answered from hst)]
  congr 1
  show _ = Traffic.State.mk _ _
  congr 1
  exact abs_set

theorem free_view (fan : Nat → Nat) (g eng : Nat) :
    Traffic.freeThread (engineConfig w fan g) (abs s) eng = freeThread w s eng := by
  unfold Traffic.freeThread freeThread
  show (match w.threads eng with | none => true | some n => _) = _
  cases w.threads eng with
  | none => rfl
  | some n =>
    dsimp only
    congr 2
    show List.countP _ (s.jobs.map _) = _
    rw [List.countP_map]
    congr 1
    funext y
    show (decide (y.engine = eng) && Traffic.Job.inPool (absJob s y) && !decide (y.main.phase = .done)) = _
    congr 2
    unfold Traffic.Job.inPool
    show (match absParent s y.parent with | .call _ => true | _ => false) = _
    cases y.parent <;> rfl

theorem sim_dispatch {c l : Nat} {call : Traffic.Call} (h : Sim w s ops t) (hc : s.calls[c]? = some call)
    (hst : call.stage = .queued) (hh : handlerOf (tablesOf w call.target) call.rpc = some l)
    (hfree : freeThread w s call.target = true) (ho : Opens w call.target l (.call c) k') :
    Next w s ops { jobs := s.jobs ++ [k'], calls := s.calls.set c { call with stage := .running } } := by
  -- the run that made the RPC exists, and does not change
  obtain ⟨y, hy⟩ : ∃ y, s.jobs[call.job]? = some y := by
    have := (h.inv.calls call (List.mem_of_getElem? hc)).1
    cases hj : s.jobs[call.job]? with
    | some y => exact ⟨y, rfl⟩
    | none => simp [logAt, hj, starts] at this
  have hu : Upd s { jobs := s.jobs ++ [k'], calls := s.calls.set c { call with stage := .running } }
      call.job y y [k'] := by
    refine ⟨hy, by rw [set_same hy], rfl, rfl, rfl, rfl, ?_, fun _ _ _ => rfl⟩
    intro z hz
    rw [List.mem_singleton.1 hz]
    exact (opens_fresh ho).1
  refine sim_base (op := .dispatch c) h trivial (engineOf_call hc (.inr (.inl rfl))) ?_
    (late_put hy hu fun b hb => hb) ?_ ?_
  · unfold Traffic.step
    dsimp only
    rw [calls_get hc]
    dsimp only
    rw [show (engineConfig w (fun _ => 0) call.target).handler (absCall s call).rpc = some l from hh]
    dsimp only
    rw [if_pos ⟨show (absCall s call).stage = .queued from hst, by
      rw [free_view]; exact hfree⟩]
    congr 1
    show _ = Traffic.State.mk _ _
    congr 1
    · rw [hu.abs_jobs h.inv, List.map_cons, List.map_nil, abs_opens ho _ (fun _ => 0)]
      have := set_same (abs_get hy)
      exact congrArg (· ++ _) this.symm
    · rw [List.map_set, hu.abs_calls h.inv]
      unfold absCall
      dsimp only
      rw [hu.number (h.inv.calls call (List.mem_of_getElem? hc)).1]
      rfl
  · intro i b
    by_cases hi : i = call.job
    · subst hi
      rw [hu.logAt_same, hu.logAt_old]
    · rw [hu.logAt_other hi]
  · refine hu.inv_same h.inv (fun _ => rfl) (h.inv.jobs _ y hy) ?_ id (set_calls hc (by rw [hst]; simp)) ?_
    · intro z hz
      rw [List.mem_singleton.1 hz]
      exact opens_ok ho
    · intro z hz i b m
      rw [List.mem_singleton.1 hz, (opens_fresh ho).2]
      exact fun hh => by cases hh

/-! ### The whole test -/

theorem sim_start (h : Start w s) : Sim w s [] { base := start w } := by
  obtain ⟨h1, h2, h3⟩ := h
  have hopen : ∀ (j : Nat) y, s.jobs[j]? = some y → ∃ r, (roots w.cfg)[j]? = some r ∧ Opens w r.1 r.2 .root y := by
    intro j y hy
    have hlt := (List.getElem?_eq_some_iff.1 hy).1
    rw [h2] at hlt
    obtain ⟨z, z1, z2⟩ := h3 j _ (List.getElem?_eq_getElem hlt)
    rw [hy] at z1
    cases z1
    exact ⟨_, List.getElem?_eq_getElem hlt, z2⟩
  have hlogs : ∀ i b, logAt s i b = [] := by
    intro i b
    unfold logAt
    cases hj : s.jobs[i]? with
    | none => rfl
    | some y =>
      obtain ⟨r, -, ho⟩ := hopen i y hj
      exact logOf_fresh (opens_fresh ho).1 b
  refine ⟨.start, ?_, (fun i b hb => by cases hb), ?_, ?_, ?_, ?_⟩
  · show Traffic.State.mk _ _ = Traffic.State.mk _ (s.calls.map _)
    rw [h1]
    congr 1
    apply List.ext_getElem?
    intro i
    rw [List.getElem?_map, List.getElem?_map]
    cases hj : s.jobs[i]? with
    | none =>
      have : (roots w.cfg)[i]? = none := by
        rw [List.getElem?_eq_none_iff] at hj ⊢
        omega
      rw [this]
      rfl
    | some y =>
      obtain ⟨r, hr, ho⟩ := hopen i y hj
      rw [hr, Option.map_some, Option.map_some, abs_opens ho s (fun _ => 0)]
      rfl
  · intro i b
    rw [hlogs]
    rfl
  · intro i y hy
    obtain ⟨r, -, ho⟩ := hopen i y hy
    exact opens_ok ho
  · intro r hr
    rw [h1] at hr
    cases hr
  · intro y hy i b m hp
    obtain ⟨i', hi'⟩ := List.getElem?_of_mem hy
    obtain ⟨r, -, ho⟩ := hopen i' y hi'
    rw [(opens_fresh ho).2] at hp
    cases hp

/-- Every step of the test with all its loops looks like no step, or a step, of the traffic. -/
theorem sim_step {e : Env} {fan : Str → Nat} (hs : SoundTest e w) (hp : LoopTest w.cfg) (hf : FanOuts w.cfg fan)
    (ih : Sim w s ops t) (hstep : Step w s s') : Next w s ops s' := by
  have hT := Traffic.inv_timed (truns_global hs hf ih.runs)
  rw [ih.base] at hT
  cases hstep with
    | main hj hm => exact sim_main hs hp ih hT hj hm
    | setUp now spread hj hx h1 h2 h3 hn hi => exact sim_setUp hs hp ih hj hx h1 h2 h3 hn hi
    | rpcs targets hu hw hl hq hpk => exact sim_rpcs hs hf ih hu hw hl hq hpk
    | list hu hw hl hq ho => exact sim_list ih hu hw hl hq ho
    | other hu hw hl hq => exact sim_other ih hu hw hl hq
    | ended hu hw hl hb => exact sim_ended ih hu hw hl hb
    | quiet hu hw hl => exact sim_quietWork ih hu hw hl
    | idle hu hw hc => exact sim_idle ih hu hw hc
    | allDone hu hw hl => exact sim_allDone hs hp ih hT hu hw hl
    | finish hj ha hc hcl => exact sim_finish ih hj ha hc hcl
    | deliver hc hst => exact sim_deliver ih hc hst
    | dispatch hc hst hh hfree ho => exact sim_dispatch ih hc hst hh hfree ho
    | complete hc hst => exact sim_complete ih hc hst

/-- Every state of the test with all its loops looks like a state of the traffic. -/
theorem sim {e : Env} {fan : Str → Nat} (hs : SoundTest e w) (hp : LoopTest w.cfg) (hf : FanOuts w.cfg fan)
    (h : Reach w s) : ∃ ops t, Sim w s ops t := by
  induction h with
  | start h => exact ⟨_, _, sim_start h⟩
  | step _ hstep ih =>
    obtain ⟨ops, t, ih⟩ := ih
    exact (sim_step hs hp hf ih hstep).sim

end Distbench.Loops
