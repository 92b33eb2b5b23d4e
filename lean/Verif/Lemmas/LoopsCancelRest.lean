import Verif.Lemmas.LoopsCancelEnd

/-! Whole tests that are cancelled come to rest under every schedule. -/

namespace Distbench.Iterations
open Spec

/-- What an action does once it is cancelled. -/
theorem work_less {p : Params} {s s' : State} (h : Steady p s) (hc : s.canceled = true)
    (hroom : s.next ≠ p.limit → 0 < readsNo s.threads → s.next + 1 < 2 ^ 31) (hw : Work p s s') :
    s'.log = .allDone :: s.log ∨ left p.copies s' < left p.copies s := by
  cases hw with
  | issue ho _ hi _ =>
    right
    simp only [left, startIteration, cost_append, cost]
    omega
  | @complete l1 l2 k ho ht =>
    right
    simp only [left, ht, hc, cost_append, cost]
    omega
  | @locked l1 l2 k b next finished d ho ht hf =>
    right
    obtain ⟨e1, -, -, -, e5⟩ := finishLocked_some hf
    cases d with
    | allDone => cases b <;> simp only [left, leave, ht, cost_append, cost] <;> omega
    | free => cases b <;> simp only [left, leave, ht, cost_append, cost] <;> omega
    | restart k =>
      cases b with
      | false => simp only [left, leave, ht, cost_append, cost]; omega
      | true =>
        have hd : isDone p true s.now s = true := by simp [isDone]
        rw [hd] at e5
        split at e5
        · cases e5
        · simp at e5
  | @overflow l1 l2 k b ho ht hf =>
    exfalso
    refine fits_some h ?_ ?_ hf
    · rw [ht, reads_append]
      simp only [reads]
      omega
    · intro hb hne
      refine hroom hne ?_
      rw [ht, hb, readsNo_append]
      simp only [readsNo]
      omega
  | @restart l1 l2 k ho ht =>
    right
    simp only [left, ht, startIteration, cost_append, cost]
    omega
  | allDone _ _ => exact .inl rfl
  | run _ ha _ _ _ _ => rw [h.quiet] at ha; cases ha
  | tick _ _ ha _ _ _ _ => rw [h.single] at ha; cases ha
  | tickOverflow _ _ ha _ _ _ => rw [h.single] at ha; cases ha

theorem cost_zero {l : List Thread} (h1 : runs l = 0) (h2 : reads l = 0) (h3 : restarts l = 0) : cost l = 0 := by
  induction l with
  | nil => rfl
  | cons t l ih =>
    cases t with
    | running _ => simp only [runs] at h1; omega
    | read _ b => simp only [reads] at h2; omega
    | restart _ => simp only [restarts] at h3; omega
    | calling => exact ih h1 h2 h3

/-- Nothing is left of an action that reported. -/
theorem steady_over {p : Params} {s : State} (h : Steady p s) (hr : 0 < reports s.log) : left p.copies s = 0 := by
  have hp := h.counts.pend
  have hc := h.counts.call h.some
  have hi := h.counts.issued
  have heq : s.next = s.finished := by
    apply Classical.byContradiction
    intro hne
    have := hc.2 hne
    omega
  unfold left
  rw [cost_zero (l := s.threads) (by omega) (by omega) (by omega)]
  omega

end Distbench.Iterations

namespace Distbench.Loops
open Tables Services Whole Spec

variable {w : Test} {s s' : State} {j a : Nat} {k k' : Job}

/-- What the thread of a cancelled list does: it gets on, or it takes note of actions and waits for others. -/
theorem thread_less (hk : Fine w k) (hrun : ActionList.AllRun (k.ctx w)) (ht : Tidy w k)
    (hq : ∀ i, (k.ctx w).activityAt i = false) (hc : k.main.canceled = true) {m : ActionList.State}
    (hm : ActionList.MainStep (k.ctx w) k.main m) :
    jobLeft { k with main := m } < jobLeft k ∨
      (jobLeft { k with main := m } = jobLeft k ∧ m.phase = k.main.phase ∧ m.log = k.main.log ∧
        ∀ b, (m.acts b).called = (k.main.acts b).called ∧ (m.acts b).closed = (k.main.acts b).closed) := by
  have hd := ActionList.main_open hm
  obtain ⟨hC, hS⟩ := ActionList.inv_core hk.main hd
  have hsame : ∀ (m : ActionList.State), (∀ b, (m.acts b).closed = (k.main.acts b).closed ∧
      (m.acts b).called = (k.main.acts b).called) → ∀ b, actLeft { k with main := m } b ≤ actLeft k b :=
    fun m h b => Nat.le_of_eq (actLeft_congr (h b).1 (h b).2)
  have hhandle : ∀ b, ((ActionList.handle k.main).acts b).closed = (k.main.acts b).closed ∧
      ((ActionList.handle k.main).acts b).called = (k.main.acts b).called := by
    intro b
    rw [ActionList.handle_acts]
    split <;> exact ⟨rfl, rfl⟩
  cases hm with
  | exit hph =>
    refine .inl (left_rank rfl (hsame _ fun b => ⟨rfl, rfl⟩) ?_)
    rw [hph]
    simp [phaseRank, ActionList.respondAndFree]
  | resume now hph hn => rw [hc] at hn; cases hn
  | cancel hph _ =>
    refine .inl (left_rank rfl (hsame _ fun b => ?_) ?_)
    · rw [ActionList.cancelActivities_none hq]
      exact ⟨rfl, rfl⟩
    · rw [hph]
      simp [phaseRank]
  | wake hph hr =>
    refine .inl (left_rank rfl (hsame _ hhandle) ?_)
    rw [hph]
    simp [phaseRank]
  | timeout hph hr =>
    refine .inl (left_rank rfl (hsame _ fun b => ⟨rfl, rfl⟩) ?_)
    rw [hph]
    simp [phaseRank]
  | drain hph hr =>
    by_cases hall : ∀ i < (k.ctx w).size, (k.main.acts i).started = true →
        ((ActionList.handle k.main).acts i).finished = true
    · rw [if_pos hall]
      refine .inl (left_rank rfl (hsame _ hhandle) ?_)
      rw [hph]
      simp [phaseRank]
    · rw [if_neg hall]
      refine .inr ⟨?_, hph.symm, rfl, fun b => ⟨(hhandle b).2, (hhandle b).1⟩⟩
      unfold jobLeft
      have : actLeft { k with main := { ActionList.handle k.main with phase := .drain } } = actLeft k :=
        funext fun b => actLeft_congr (hhandle b).1 (hhandle b).2
      rw [this, hph]
  | scanned hph =>
    refine .inl (left_rank rfl (hsame _ fun b => ⟨rfl, rfl⟩) ?_)
    rw [hph]
    dsimp only
    split <;> simp only [phaseRank] <;> omega
  | visit i delay hph hlt =>
    refine .inl (left_rank rfl ?_ ?_)
    · intro b
      have hadv : ∀ m : ActionList.State, (ActionList.advance i m).acts = m.acts := by
        intro m
        unfold ActionList.advance
        split <;> rfl
      by_cases hb : b = i
      · subst hb
        cases hst : (k.main.acts b).started with
        | true =>
          rw [visit_started hst]
          exact Nat.le_of_eq (actLeft_congr (by rw [hadv]) (by rw [hadv]))
        | false =>
          have h2 : (k.main.acts b).called = false := by
            cases h : (k.main.acts b).called with
            | false => rfl
            | true => rw [hC.called_started b h] at hst; cases hst
          have h1 : (k.main.acts b).closed = false := by
            cases h : (k.main.acts b).closed with
            | false => rfl
            | true => rw [hC.closed_called b h] at h2; cases h2
          refine actLeft_none h1 h2 ?_
          cases hu : k.under b with
          | none => rfl
          | some u =>
            obtain ⟨x, -, -, h3, -⟩ := hk.under b u hu
            rw [hst] at h3
            cases h3
      · refine Nat.le_of_eq (actLeft_congr ?_ ?_) <;> rw [hadv, visit_other hb]
    · have hvp := (ActionList.visit_moves (m := k.main) delay hrun hlt).1
      have hlt : i < k.entry.listActions.length := hlt
      show phaseRank _ (ActionList.advance i (ActionList.visit (k.ctx w) delay i k.main)).phase < _
      unfold ActionList.advance
      rw [if_neg (by rw [hvp, hph]; simp), hph]
      simp only [phaseRank]
      omega

end Distbench.Loops

namespace Distbench.LoopsCancel
open Tables Services Whole Spec Loops

variable {e : Env} {w : Test} {fan level layer : Str → Nat} {s s' : State} {j a : Nat} {k k' : Job}

/-- Telling runs does not count. -/
theorem seen_settle {b0 b : Loops.State} (h : EquallyFar b0 b) : EquallyFar b0 (settle s b).base := by
  obtain ⟨h1, h2, h3⟩ := h
  refine ⟨h1, by simpa [settle] using h2, ?_⟩
  intro j k k' hj hj'
  obtain ⟨y, g1, rfl | rfl⟩ := (settle_told s b).get hj'
  · exact h3 j k k' hj g1
  · obtain ⟨f1, f2, f3, f4⟩ := h3 j k y hj g1
    refine ⟨f1, f2, f3, fun a => ⟨(f4 a).1, (f4 a).2.1, ?_⟩⟩
    rw [← (f4 a).2.2]
    show ((y.under a).map _).map _ = _
    cases y.under a <;> rfl

theorem seen_refl (b : Loops.State) : EquallyFar b b := by
  refine ⟨rfl, rfl, ?_⟩
  intro j k k' hj hj'
  rw [hj] at hj'
  cases hj'
  exact ⟨rfl, rfl, rfl, fun _ => ⟨rfl, rfl, rfl⟩⟩

theorem seen_trans {b1 b2 b3 : Loops.State} (h : EquallyFar b1 b2) (h' : EquallyFar b2 b3) : EquallyFar b1 b3 := by
  obtain ⟨h1, h2, h3⟩ := h
  obtain ⟨g1, g2, g3⟩ := h'
  refine ⟨g1.trans h1, g2.trans h2, ?_⟩
  intro j k k' hj hj'
  have hlt := (List.getElem?_eq_some_iff.1 hj).1
  have hy := List.getElem?_eq_getElem (l := b2.jobs) (i := j) (by omega)
  obtain ⟨e1, e2, e3, e4⟩ := h3 j k _ hj hy
  obtain ⟨f1, f2, f3, f4⟩ := g3 j _ k' hy hj'
  exact ⟨f1.trans e1, f2.trans e2, f3.trans e3, fun a => ⟨(f4 a).1.trans (e4 a).1, (f4 a).2.1.trans (e4 a).2.1,
    (f4 a).2.2.trans (e4 a).2.2⟩⟩

/-- One run is replaced by one that is equally far. -/
theorem seen_put {b0 b : Loops.State} (hj : b0.jobs[j]? = some k) (hjobs : b.jobs = b0.jobs.set j k')
    (hcalls : b.calls = b0.calls) (h0 : k'.list = k.list ∧ k'.entry = k.entry) (h1 : k'.main.phase = k.main.phase)
    (h2 : ∀ a, (k'.main.acts a).called = (k.main.acts a).called ∧ (k'.main.acts a).closed = (k.main.acts a).closed ∧
      (k'.under a).map doneSoFar = (k.under a).map doneSoFar) : EquallyFar b0 b := by
  refine ⟨hcalls, by rw [hjobs, List.length_set], ?_⟩
  intro i x x' hi hi'
  rw [hjobs] at hi'
  rcases set_get hi' with ⟨rfl, rfl⟩ | ⟨-, g⟩
  · rw [hj] at hi
    cases hi
    exact ⟨h0.1, h0.2, h1, h2⟩
  · rw [hi] at g
    cases g
    exact ⟨rfl, rfl, rfl, fun _ => ⟨rfl, rfl, rfl⟩⟩

theorem less_irrefl (M : Multiset Mark) : ¬ Less M M := by
  induction M using less_wf.induction with
  | h M ih => exact fun h => ih M h h

theorem over_stays {b0 b : Loops.State} (h : EquallyFar b0 b) (ho : LoopsOver b0) : LoopsOver b := by
  obtain ⟨h1, h2, h3⟩ := h
  refine ⟨fun k hk => ?_, fun c hc => ho.2 c (by rw [← h1]; exact hc)⟩
  obtain ⟨j, hj⟩ := List.getElem?_of_mem hk
  have hlt := (List.getElem?_eq_some_iff.1 hj).1
  have hy := List.getElem?_eq_getElem (l := b0.jobs) (i := j) (by omega)
  rw [(h3 j _ k hy hj).2.2.1]
  exact ho.1 _ (List.mem_of_getElem? hy)

theorem over_far {b0 b : Loops.State} (h : EquallyFar b0 b) (ho : LoopsOver b) : LoopsOver b0 := by
  obtain ⟨h1, h2, h3⟩ := h
  refine ⟨fun k hk => ?_, fun c hc => ho.2 c (by rw [h1]; exact hc)⟩
  obtain ⟨j, hj⟩ := List.getElem?_of_mem hk
  have hlt := (List.getElem?_eq_some_iff.1 hj).1
  have hy := List.getElem?_eq_getElem (l := b.jobs) (i := j) (by omega)
  rw [← (h3 j k _ hj hy).2.2.1]
  exact ho.1 _ (List.mem_of_getElem? hy)

/-- As much is left of states that are equally far. -/
theorem marks_far {lev : Nat → Nat} {hd : Nat → Option Nat} {b0 b : Loops.State} (h : EquallyFar b0 b) :
    marks jobLeft lev hd b = marks jobLeft lev hd b0 := by
  obtain ⟨h1, h2, h3⟩ := h
  unfold marks
  rw [h1]
  congr 2
  apply List.ext_getElem?
  intro j
  rw [List.getElem?_map, List.getElem?_map]
  by_cases hj : j < b0.jobs.length
  · have e1 := List.getElem?_eq_getElem hj
    have e2 := List.getElem?_eq_getElem (l := b.jobs) (i := j) (by omega)
    rw [e1, e2]
    obtain ⟨f1, f2, f3, f4⟩ := h3 j _ _ e1 e2
    generalize b.jobs[j] = k' at *
    generalize b0.jobs[j] = k at *
    simp only [Option.map_some, Option.some.injEq]
    unfold jobMark jobLeft
    rw [f1, f2, f3]
    have : actLeft k' = actLeft k := by
      funext a
      obtain ⟨g1, g2, g3⟩ := f4 a
      unfold actLeft copiesAt
      rw [g1, g2, f2]
      cases hu : k.under a with
      | none =>
        cases hu' : k'.under a with
        | none => rfl
        | some u' => rw [hu, hu'] at g3; simp at g3
      | some u =>
        cases hu' : k'.under a with
        | none => rw [hu, hu'] at g3; simp at g3
        | some u' =>
          rw [hu, hu'] at g3
          simp only [Option.map_some, Option.some.injEq, doneSoFar, Prod.mk.injEq] at g3
          dsimp only
          unfold Iterations.left
          rw [g3.2.1, g3.2.2.1]
    rw [this]
  · rw [List.getElem?_eq_none (by omega), List.getElem?_eq_none (by omega)]

theorem marks_put {lev : Nat → Nat} {hd : Nat → Option Nat} {b0 b : Loops.State} (hj : b0.jobs[j]? = some k)
    (hjobs : b.jobs = b0.jobs.set j k') (hcalls : b.calls = b0.calls) (hl : k'.list = k.list)
    (hleft : jobLeft k' = jobLeft k) : marks jobLeft lev hd b = marks jobLeft lev hd b0 := by
  obtain ⟨X, h1, h2⟩ := map_set (jobMark jobLeft lev) b0.jobs j k hj
  unfold marks
  rw [hjobs, hcalls, h2, h1]
  unfold jobMark
  rw [hl, hleft]

/-- After cancellation each step does nothing, or leaves less to do. -/
theorem base_less (hE : Rests e w fan level) (hA : After w s) {b : Loops.State} (h : Loops.Step w s.base b) :
    (EquallyFar s.base b ∧
      marks jobLeft (levelAt w level) (handlerAt w fan) b = marks jobLeft (levelAt w level) (handlerAt w fan) s.base) ∨
    Less (marks jobLeft (levelAt w level) (handlerAt w fan) b) (marks jobLeft (levelAt w level) (handlerAt w fan) s.base) := by
  obtain ⟨hs, hp, hkd, hf, hlv, hc⟩ := hE
  have hE : Rests e w fan level := ⟨hs, hp, hkd, hf, hlv, hc⟩
  have hr := hA.reach
  obtain ⟨hP, hAc⟩ := reach_inv hs hp hr
  have hcanc : ∀ {j : Nat} {k : Job}, s.base.jobs[j]? = some k →
      k.main.canceled = true ∧ ∀ a u, k.under a = some u → u.state.canceled = true := by
    intro j k hj
    obtain ⟨i, hi⟩ := reach_service hs hp hf hr hj
    exact (reach_flags hr).told j k hj (hA.cancelled _ i hi)
  have hnot : ∀ {j a : Nat} {k : Job} {x : ActionEntry} {u : Under} {st : Iterations.State},
      UnderWay s.base j a k x u → Iterations.Work (k.params x u) u.state st →
      (k.main.acts a).called = false ∧ (k.main.acts a).closed = false ∧ k.main.phase ≠ .done := by
    intro j a k x u st ⟨hj, hx, hun⟩ hw
    have hk := hAc.fine j k hj
    obtain ⟨x', g1, g2, g3, g4, g5, g6⟩ := hk.under a u hun
    rw [hx] at g1
    cases g1
    have hnc : (k.main.acts a).called = false := by
      cases hcl : (k.main.acts a).called with
      | false => rfl
      | true =>
        exfalso
        have h0 := Iterations.steady_over g2 (g6.1 hcl)
        rcases Iterations.work_less g2 ((hcanc hj).2 a u hun) (hA.room j a k u x hj hun hx) hw with h | h
        · have h1 := Iterations.steady_done g2 hw h
          have h2 := g6.1 hcl
          omega
        · omega
    have hnd : k.main.phase ≠ .done := by
      intro hd
      rw [done_reported hAc hj hd a g3] at hnc
      cases hnc
    refine ⟨hnc, ?_, hnd⟩
    cases hcl : (k.main.acts a).closed with
    | false => rfl
    | true =>
      rw [(ActionList.inv_core hk.main hnd).1.closed_called a hcl] at hnc
      cases hnc
  -- an iteration gets on
  have hwork : ∀ {j a : Nat} {k : Job} {x : ActionEntry} {u : Under} {st : Iterations.State},
      UnderWay s.base j a k x u → Iterations.Work (k.params x u) u.state st → st.log ≠ .allDone :: u.state.log →
      jobLeft (k.goes a ⟨u.since, st⟩) < jobLeft k := by
    intro j a k x u st ⟨hj, hx, hun⟩ hw hne
    have hk := hAc.fine j k hj
    obtain ⟨x', g1, g2, g3, g4, g5, g6⟩ := hk.under a u hun
    rw [hx] at g1
    cases g1
    have hcp : copiesAt k a = (Iterations.params x.proto 0 false).copies := by
      unfold copiesAt
      rw [hx]
    have hlt : Iterations.left (copiesAt k a) st < Iterations.left (copiesAt k a) u.state := by
      rcases Iterations.work_less g2 ((hcanc hj).2 a u hun) (hA.room j a k u x hj hun hx) hw with h | h
      · exact absurd h hne
      · rw [copies_params, ← hcp] at h
        exact h
    obtain ⟨hnc, hncl, -⟩ := hnot ⟨hj, hx, hun⟩ hw
    exact left_goes (List.getElem?_eq_some_iff.1 hx).1 hnc hncl hun hlt
  have hnil : ∀ (k : Job), respond k.main k.main k.parent s.base.calls = s.base.calls := fun k => respond_same _ _ _
  have hput : ∀ {j a : Nat} {k : Job} {x : ActionEntry} {u : Under} {st : Iterations.State},
      UnderWay s.base j a k x u → Iterations.Work (k.params x u) u.state st → st.log ≠ .allDone :: u.state.log →
      Less (marks jobLeft (levelAt w level) (handlerAt w fan) (s.base.put j (k.goes a ⟨u.since, st⟩)))
        (marks jobLeft (levelAt w level) (handlerAt w fan) s.base) := by
    intro j a k x u st huw hw hne
    refine (less_turn (k' := k.goes a ⟨u.since, st⟩) (xs := []) (rs := []) hE hr huw.1 (List.append_nil _).symm ?_ rfl
      (hwork huw hw hne) (.inl rfl) (fun x hx => absurd hx List.not_mem_nil)
      (fun x hx => absurd hx List.not_mem_nil)).2
    show s.base.calls = respond k.main k.main k.parent s.base.calls ++ []
    rw [hnil, List.append_nil]
  cases h with
  | @main j k m hj hm =>
    have hk := hAc.fine j k hj
    have hq := quiet_list hs hp hk.entry
    rcases thread_less hk (reach_all_run hs hp hkd hf hc hr hj)
      (reach_tidy hs hp hkd hf hc hr k (List.mem_of_getElem? hj)) hq (hcanc hj).1 hm with h | ⟨h1, h2, h3, h4⟩
    · right
      exact (less_turn (k' := { k with main := m }) (xs := []) (rs := []) hE hr hj (List.append_nil _).symm
        (List.append_nil _).symm rfl h (ActionList.main_frame hk.main hq hm).resp
        (fun x hx => absurd hx List.not_mem_nil) (fun x hx => absurd hx List.not_mem_nil)).2
    · left
      have hcalls : respond k.main m k.parent s.base.calls = s.base.calls := by
        unfold respond
        rw [h3, if_neg (by omega)]
      exact ⟨seen_put hj rfl hcalls ⟨rfl, rfl⟩ h2 fun a => ⟨(h4 a).1, (h4 a).2, rfl⟩, marks_put hj rfl hcalls rfl h1⟩
  | @setUp j a k x st now spread hj hx h1 h2 h3 h4 h5 =>
    right
    have hk := hAc.fine j k hj
    have ha := (List.getElem?_eq_some_iff.1 hx).1
    have hcall : (k.main.acts a).called = false := by
      cases h : (k.main.acts a).called with
      | false => rfl
      | true =>
        rcases hk.called a h with h | h
        · rw [h2] at h; cases h
        · exact absurd h4 h
    have hcl : (k.main.acts a).closed = false := by
      cases h : (k.main.acts a).closed with
      | false => rfl
      | true =>
        by_cases hd : k.main.phase = .done
        · rw [done_reported hAc hj hd a h1] at hcall; cases hcall
        · rw [(ActionList.inv_core hk.main hd).1.closed_called a h] at hcall; cases hcall
    obtain ⟨-, -, -, g2, g3, -⟩ := steady_initiate hp (proto_mem hs hk.entry hx) h5
    refine (less_turn (k' := k.goes a ⟨now, st⟩) (xs := []) (rs := []) hE hr hj (List.append_nil _).symm ?_ rfl ?_
      (.inl rfl) (fun x hx => absurd hx List.not_mem_nil) (fun x hx => absurd hx List.not_mem_nil)).2
    · show s.base.calls = respond k.main k.main k.parent s.base.calls ++ []
      rw [hnil, List.append_nil]
    · refine left_act (a := a) rfl rfl (fun i hi => ?_) ha ?_
      · unfold actLeft
        have : (k.goes a ⟨now, st⟩).under i = k.under i := if_neg hi
        rw [this]
        rfl
      · have e1 : actLeft (k.goes a ⟨now, st⟩) a = 2 + Iterations.left (copiesAt k a) st := by
          unfold actLeft
          have : (k.goes a ⟨now, st⟩).under a = some ⟨now, st⟩ := if_pos rfl
          rw [this]
          show (if (k.main.acts a).closed then 0 else if (k.main.acts a).called then 1 else _) = _
          rw [hcall, hcl]
          rfl
        have e2 : actLeft k a = 3 + 3 * (copiesAt k a).toNat := by
          unfold actLeft
          rw [hcall, hcl, h4]
          rfl
        have e3 : Iterations.left (copiesAt k a) st = 3 * (copiesAt k a).toNat := by
          unfold Iterations.left
          rw [g2, g3]
          simp [Iterations.cost]
        omega
  | @rpcs j a k x u st n b t q f targets huw hw hl hwk hpick =>
    right
    refine (less_turn (k' := k.goes a ⟨u.since, st⟩) (xs := []) (rs := Traffic.newCalls q j a n.toNat targets) hE hr
      huw.1 (List.append_nil _).symm ?_ rfl (hwork huw hw (by rw [hl]; simp)) (.inl rfl)
      (fun x hx => absurd hx List.not_mem_nil) ?_).2
    · show s.base.calls ++ _ = respond k.main k.main k.parent s.base.calls ++ _
      rw [hnil]
    · intro r hr
      unfold Traffic.newCalls at hr
      obtain ⟨t, ht, rfl⟩ := List.mem_map.1 hr
      exact ⟨a, x, _, huw.2.1, hwk⟩
  | @list j a k x u st n b t l k3 huw hw hl hwk hop =>
    right
    refine (less_turn (k' := k.goes a ⟨u.since, st⟩) (xs := [k3]) (rs := []) hE hr huw.1 rfl ?_ rfl
      (hwork huw hw (by rw [hl]; simp)) (.inl rfl) ?_ (fun x hx => absurd hx List.not_mem_nil)).2
    · show s.base.calls = respond k.main k.main k.parent s.base.calls ++ []
      rw [hnil, List.append_nil]
    · intro y hy
      rw [List.mem_singleton] at hy
      subst hy
      exact ⟨a, x, huw.2.1, by rw [(opens_same hop).2.1]; exact hwk⟩
  | other huw hw hl _ => exact .inr (hput huw hw (by rw [hl]; simp))
  | ended huw hw hl _ => exact .inr (hput huw hw (by rw [hl]; simp))
  | quiet huw hw hl => exact .inr (hput huw hw (by rw [hl]; simp))
  | @idle j a k x u st huw hi _ =>
    left
    obtain ⟨hj, hx, hun⟩ := huw
    obtain ⟨-, f2, f3, f4, f5, f6⟩ := Iterations.idle_frame hi
    have hg : ∀ b, b ≠ a → (k.goes a ⟨u.since, st⟩).under b = k.under b := fun b hb => if_neg hb
    have hga : (k.goes a ⟨u.since, st⟩).under a = some ⟨u.since, st⟩ := if_pos rfl
    refine ⟨seen_put (k' := k.goes a ⟨u.since, st⟩) hj rfl rfl ⟨rfl, rfl⟩ rfl fun b => ⟨rfl, rfl, ?_⟩,
      marks_put (k' := k.goes a ⟨u.since, st⟩) hj rfl rfl rfl ?_⟩
    · by_cases hb : b = a
      · rw [hb, hga, hun]
        simp [doneSoFar, f2, f3, f4, f5, f6.1]
      · rw [hg b hb]
    · unfold jobLeft
      have : actLeft (k.goes a ⟨u.since, st⟩) = actLeft k := by
        funext b
        unfold actLeft
        by_cases hb : b = a
        · rw [hb, hga, hun]
          have : Iterations.left (copiesAt k a) st = Iterations.left (copiesAt k a) u.state := by
            unfold Iterations.left
            rw [f5, f6.1]
          dsimp only
          show (if (k.main.acts a).closed then 0 else if (k.main.acts a).called then 1 else
            2 + Iterations.left (copiesAt k a) st) = _
          rw [this]
        · rw [hg b hb]
          rfl
      rw [this]
      rfl
  | @allDone j a k x u st huw hw hl =>
    right
    obtain ⟨hj, hx, hun⟩ := huw
    obtain ⟨hcall, hcl, hd⟩ := hnot ⟨hj, hx, hun⟩ hw
    have hk := hAc.fine j k hj
    obtain ⟨hC, hS⟩ := ActionList.inv_core hk.main hd
    refine (less_turn (k' := { k.goes a ⟨u.since, st⟩ with main := ActionList.callback (k.ctx w) a k.main })
      (xs := []) (rs := []) hE hr hj (List.append_nil _).symm (List.append_nil _).symm rfl ?_
      (ActionList.callback_resp hC hcall)
      (fun x hx => absurd hx List.not_mem_nil) (fun x hx => absurd hx List.not_mem_nil)).2
    refine left_act (a := a) rfl (ActionList.callback_phase _ _ _) (fun i hi => ?_)
      (List.getElem?_eq_some_iff.1 hx).1 ?_
    · unfold actLeft
      have h1 : ({ k.goes a ⟨u.since, st⟩ with main := ActionList.callback (k.ctx w) a k.main } : Job).under i =
          k.under i := if_neg hi
      rw [h1]
      dsimp only
      rw [ActionList.callback_acts, if_neg hi]
      rfl
    · have h1 : actLeft { k.goes a ⟨u.since, st⟩ with main := ActionList.callback (k.ctx w) a k.main } a = 1 := by
        unfold actLeft
        dsimp only
        rw [ActionList.callback_acts, if_pos rfl]
        dsimp only
        rw [hcl]
        rfl
      have h2 : actLeft k a = 2 + Iterations.left (copiesAt k a) u.state := by
        unfold actLeft
        rw [hcall, hcl, hun]
        rfl
      omega
  | @finish j a k hj ha h1 h2 =>
    right
    refine (less_turn (k' := { k with main := ActionList.finishAction a k.main }) (xs := []) (rs := []) hE hr
      hj (List.append_nil _).symm ?_ rfl ?_ (.inl (ActionList.responses_cons_other (by simp)))
      (fun x hx => absurd hx List.not_mem_nil) (fun x hx => absurd hx List.not_mem_nil)).2
    · show s.base.calls = respond k.main (ActionList.finishAction a k.main) k.parent s.base.calls ++ []
      have : responses (ActionList.finishAction a k.main).log = responses k.main.log :=
        ActionList.responses_cons_other (by simp)
      unfold respond
      rw [this, if_neg (by omega), List.append_nil]
    · refine left_act (a := a) rfl rfl (fun i hi => ?_) ha ?_
      · refine actLeft_congr ?_ ?_ <;> rw [ActionList.finish_acts, if_neg hi]
      · have e1 : actLeft { k with main := ActionList.finishAction a k.main } a = 0 := by
          unfold actLeft
          rw [if_pos]
          show ((ActionList.finishAction a k.main).acts a).closed = true
          rw [ActionList.finish_acts, if_pos rfl]
        have e2 : actLeft k a = 1 := by
          unfold actLeft
          rw [h2, h1]
          rfl
        omega
  | @deliver c r hcl hst =>
    right
    refine call_less (r := r) (c := c) (xs := []) hcl (List.append_nil _).symm rfl ?_
      (fun x hx => absurd hx List.not_mem_nil)
    rw [hst]
    split <;> simp [stageNumber]
  | @dispatch c r l k3 hcl hst hh _ hop =>
    right
    refine call_less (st := .running) (xs := [k3]) hcl rfl rfl ?_ ?_
    · rw [hst]
      simp [stageNumber]
    · intro x hx
      rw [List.mem_singleton] at hx
      subst hx
      rw [(opens_same hop).2.1]
      rw [call_handler hs hf hP hAc hcl] at hh
      unfold callLevel
      rw [show handlerAt w fan r.rpc = some l from hh]
      dsimp only
      omega
  | @complete c r hcl hst =>
    right
    refine call_less (st := .completed) (xs := []) hcl (List.append_nil _).symm rfl ?_
      (fun x hx => absurd hx List.not_mem_nil)
    rw [hst]
    simp [stageNumber]

theorem step_less (hE : Rests e w fan level) (hA : After w s) (h : Step w s s') :
    (EquallyFar s.base s'.base ∧
      marks jobLeft (levelAt w level) (handlerAt w fan) s'.base = marks jobLeft (levelAt w level) (handlerAt w fan) s.base) ∨
    Less (marks jobLeft (levelAt w level) (handlerAt w fan) s'.base) (marks jobLeft (levelAt w level) (handlerAt w fan) s.base) := by
  cases h with
  | run h _ =>
    rw [marks_told (fun _ => left_tell) (settle_told s _)]
    rcases base_less hE hA h with ⟨h1, h2⟩ | h
    · exact .inl ⟨seen_settle h1, h2⟩
    · exact .inr h
  | cancel g =>
    left
    exact ⟨seen_settle (seen_refl _), marks_told (fun _ => left_tell) (settle_told _ _)⟩
  | expire _ => exact .inl ⟨seen_refl _, rfl⟩
  | @refuse c r hc hst _ =>
    right
    refine call_less (st := .answered) (xs := []) hc (List.append_nil _).symm rfl ?_
      (fun x hx => absurd hx List.not_mem_nil)
    rw [hst]
    simp [stageNumber]

/-- Under every schedule there is a moment from which on nothing is done. -/
theorem rests (hE : Rests e w fan level) {s0 : State} (hr : Reach w s0) (hcan : AllCancelled w.cfg s0)
    (hroom : RoomLeft w.cfg s0.base) {f : Nat → State} (hf : Schedule w s0 f) :
    (∃ N, ∀ n, N ≤ n → EquallyFar (f N).base (f n).base) ∧ 
    ((∃ layer, LayeredServices w layer) → (∀ g, w.threads g ≠ some 0) → NotIdle w f → ∃ N, ∀ n, N ≤ n → LoopsOver (f n).base) := by
  obtain ⟨h0, hstep⟩ := hf
  have hlead : ∀ n, CLeads w s0 (f n) := by
    intro n
    induction n with
    | zero => rw [h0]; exact .refl
    | succ n ih => exact .step ih (hstep n)
  have hA : ∀ n, After w (f n) := fun n =>
    ⟨(hlead n).reach hr, fun g i hi => leads_cancelled (hlead n) (hcan g i hi),
      leads_fit hE.sound hE.test hE.fans hr hcan hroom (hlead n), fun j a k u x hj hu hx =>
      leads_room hE.sound hE.test hE.fans hr hcan hroom (hlead n) hj hu hx⟩
  obtain ⟨M, ⟨N, hN⟩, hmin⟩ : ∃ M, (∃ N, marks jobLeft (levelAt w level) (handlerAt w fan) (f N).base = M) ∧
      ∀ n, ¬ Less (marks jobLeft (levelAt w level) (handlerAt w fan) (f n).base) M := by
    have : ∀ M, (∃ N, marks jobLeft (levelAt w level) (handlerAt w fan) (f N).base = M) →
        ∃ M, (∃ N, marks jobLeft (levelAt w level) (handlerAt w fan) (f N).base = M) ∧
          ∀ n, ¬ Less (marks jobLeft (levelAt w level) (handlerAt w fan) (f n).base) M := by
      intro M
      induction M using less_wf.induction with
      | h M ih =>
        intro hM
        by_cases hlow : ∃ n, Less (marks jobLeft (levelAt w level) (handlerAt w fan) (f n).base) M
        · obtain ⟨n, hn⟩ := hlow
          exact ih _ hn ⟨n, rfl⟩
        · exact ⟨M, hM, fun n hn => hlow ⟨n, hn⟩⟩
    exact this _ ⟨0, rfl⟩
  have hrest : ∀ n, N ≤ n → EquallyFar (f N).base (f n).base ∧
      marks jobLeft (levelAt w level) (handlerAt w fan) (f n).base = M := by
    intro n hn
    obtain ⟨d, rfl⟩ := Nat.exists_eq_add_of_le hn
    clear hn
    induction d with
    | zero => exact ⟨seen_refl _, hN⟩
    | succ d ih =>
      obtain ⟨i1, i2⟩ := ih
      rcases step_less hE (hA (N + d)) (hstep (N + d)) with ⟨h1, h2⟩ | h
      · exact ⟨seen_trans i1 h1, by rw [← i2]; exact h2⟩
      · exact absurd (by rw [i2] at h; exact h) (hmin (N + d + 1))
  refine ⟨⟨N, fun n hn => (hrest n hn).1⟩, fun ⟨layer, hly⟩ hth hni => ⟨N, fun n hn => over_stays (hrest n hn).1 ?_⟩⟩
  clear hn n
  apply Classical.byContradiction
  intro hov
  have hlow : ∀ n, N ≤ n → ∃ s', Step w (f n) s' ∧ ¬ EquallyFar (f n).base s'.base := by
    intro n hn
    apply Classical.byContradiction
    intro hno
    have hgo : ¬ GoesOn w fan level (f n) := by
      rintro ⟨s', g1, g2⟩
      refine hno ⟨s', g1, fun heq => ?_⟩
      rw [marks_far heq] at g2
      exact less_irrefl _ g2
    exact hov (over_far (hrest n hn).1 (over_or_goes ⟨hE, hly, hth⟩ (hA n) hgo))
  obtain ⟨n, hn, hne⟩ := hni N hlow
  rcases step_less hE (hA n) (hstep n) with ⟨h1, -⟩ | h
  · exact hne h1
  · rw [(hrest n hn).2] at h
    exact hmin (n + 1) h

end Distbench.LoopsCancel
