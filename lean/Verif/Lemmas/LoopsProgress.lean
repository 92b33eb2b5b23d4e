import Verif.Lemmas.LoopsTidy
import Verif.Lemmas.TrafficLive
import Verif.Lemmas.WholeText

/-! A test that is not over can go on. -/

namespace Distbench.Loops
open Tables Services Whole Spec

variable {w : Test} {s s' : State} {j a : Nat} {k k' : Job} {ops : List Traffic.TOp} {t : Traffic.TState}
  {x : ActionEntry} {u : Under} {e : Env} {fan : Str → Nat}

/-! ### What changes -/

theorem ne_act (hj : s.jobs[j]? = some k) (hj' : s'.jobs[j]? = some k') (he : k'.entry = k.entry)
    (hx : k.entry.listActions[a]? = some x) (hne : absAct k a ≠ absAct k' a) : abs s' ≠ abs s := by
  intro h
  have h1 := abs_get hj
  have h2 := abs_get hj'
  rw [h, h1] at h2
  injection h2 with h2
  have h3 := acts_get hx s
  have h4 := acts_get (k := k') (by rw [he]; exact hx) s'
  rw [h2, h4] at h3
  injection h3 with h3
  exact hne h3.symm

theorem ne_over (hj : s.jobs[j]? = some k) (hj' : s'.jobs[j]? = some k') (h1 : k.main.phase ≠ .done)
    (h2 : k'.main.phase = .done) : abs s' ≠ abs s := by
  intro h
  have h3 := abs_get hj
  have h4 := abs_get hj'
  rw [h, h3] at h4
  injection h4 with h4
  have h5 : (absJob s k).over = (absJob s' k').over := by rw [h4]
  have h6 : decide (k.main.phase = .done) = decide (k'.main.phase = .done) := h5
  rw [h2] at h6
  simp [h1] at h6

theorem ne_call {c : Nat} {r r' : Traffic.Call} (hc : s.calls[c]? = some r) (hc' : s'.calls[c]? = some r')
    (hne : r.stage ≠ r'.stage) : abs s' ≠ abs s := by
  intro h
  have h3 := calls_get hc
  have h4 := calls_get hc'
  rw [h, h3] at h4
  injection h4 with h4
  have h5 : (absCall s r).stage = (absCall s' r').stage := by rw [h4]
  exact hne h5

/-! ### Going on -/

/-- The traffic, as seen from outside, can go on. -/
def Ahead (w : Test) (s : State) (ops : List Traffic.TOp) : Prop :=
  ∃ s' ops' t', Leads w s s' ∧ NumbersFit s' ∧ Sim w s' ops' t' ∧ timedSteps ops < timedSteps ops'

theorem ahead {s1 : State} (hs : SoundTest e w) (hp : LoopTest w.cfg) (hf : FanOuts w.cfg fan)
    (h : Sim w s ops t) (h1 : Leads w s s1) (h2 : Leads w s1 s') (hne : abs s' ≠ abs s1) (ho : NumbersFit s') :
    Ahead w s ops := by
  obtain ⟨ops1, t1, g1, g2⟩ := leads_next hs hp hf h h1
  obtain ⟨ops2, t2, g3, g4⟩ := leads_next hs hp hf g1 h2
  refine ⟨s', ops2, t2, h1.trans h2, ho, g3, ?_⟩
  rcases g4 with ⟨-, g4⟩ | g4
  · exact absurd g4 hne
  · rcases g2 with ⟨rfl, -⟩ | g2
    · exact g4
    · exact Nat.lt_trans g2 g4

theorem none_put (ho : NumbersFit s) (hk : ∀ a u, k.under a = some u → u.state.overflow = false) :
    NumbersFit (s.put j k) := by
  intro y hy
  rcases mem_set hy with rfl | hy
  · exact hk
  · exact ho y hy

theorem none_goes (ho : NumbersFit s) (hj : s.jobs[j]? = some k) (hu : u.state.overflow = false) :
    ∀ b v, (k.goes a u).under b = some v → v.state.overflow = false := by
  intro b v hv
  unfold Job.goes at hv
  dsimp only at hv
  split at hv
  · cases hv; exact hu
  · exact ho k (List.mem_of_getElem? hj) b v hv

theorem none_opens {eng l : Nat} {p : Traffic.Parent} (h : Opens w eng l p k) :
    ∀ b v, k.under b = some v → v.state.overflow = false := by
  intro b v hv
  rw [(opens_fresh h).1] at hv
  cases hv

theorem put_get (hj : s.jobs[j]? = some k) : (s.put j k').jobs[j]? = some k' :=
  List.getElem?_set_self (List.getElem?_eq_some_iff.1 hj).1

/-! ### Iterations -/

theorem busy_put {b n : Nat} (hj : s.jobs[j]? = some k) (h1 : k'.parent = k.parent) (h2 : k'.main = k.main) :
    busy (s.put j k') j b n = busy s j b n := by
  unfold busy
  congr 1
  have key : ∀ l : List Job, ∀ i, l[i]? = some k →
      ((l.set i k').any fun k => k.parent = .action j b n && !(k.main.phase = .done)) =
        l.any fun k => k.parent = .action j b n && !(k.main.phase = .done) := by
    intro l
    induction l with
    | nil => intro i hi; simp at hi
    | cons y l ih =>
      intro i hi
      cases i with
      | zero =>
        simp only [List.getElem?_cons_zero, Option.some.injEq] at hi
        subst hi
        simp only [List.set_cons_zero, List.any_cons, h1, h2]
      | succ i =>
        simp only [List.getElem?_cons_succ] at hi
        simp only [List.set_cons_succ, List.any_cons, ih i hi]
  exact key s.jobs j hj

/-- The run is the same but for the action at place `a`. -/
structure Same (k k' : Job) : Prop where
  engine : k'.engine = k.engine
  list : k'.list = k.list
  entry : k'.entry = k.entry
  parent : k'.parent = k.parent
  warmup : k'.warmup = k.warmup
  main : k'.main = k.main

theorem same_goes : Same k (k.goes a u) := ⟨rfl, rfl, rfl, rfl, rfl, rfl⟩

theorem Same.trans {k'' : Job} (h : Same k k') (h' : Same k' k'') : Same k k'' :=
  ⟨h'.engine.trans h.engine, h'.list.trans h.list, h'.entry.trans h.entry, h'.parent.trans h.parent,
    h'.warmup.trans h.warmup, h'.main.trans h.main⟩

theorem Same.params (h : Same k k') (st : Iterations.State) : k'.params x ⟨u.since, st⟩ = k.params x u := by
  unfold Job.params
  rw [h.warmup]

theorem under_goes (hu : UnderWay s j a k x u) (st : Iterations.State) :
    UnderWay (s.put j (k.goes a ⟨u.since, st⟩)) j a (k.goes a ⟨u.since, st⟩) x ⟨u.since, st⟩ :=
  ⟨put_get hu.1, hu.2.1, if_pos rfl⟩

/-- The bookkeeping between iterations, none of which has to wait. -/
theorem lift_glide {p : Iterations.Params} {st st' : Iterations.State} (h : Iterations.Glide p st st') :
    ∀ (s : State) (k : Job) (u : Under), UnderWay s j a k x u → u.state = st → k.params x u = p →
      k.main.canceled = false → Iterations.Good p st → NumbersFit s → (∀ n, busy s j a n = false) →
      ∃ s' k', Leads w s s' ∧ UnderWay s' j a k' x ⟨u.since, st'⟩ ∧ Same k k' ∧ NumbersFit s' := by
  induction h with
  | refl =>
    rintro s k ⟨since, st⟩ hu rfl hp hc hg ho hb
    exact ⟨s, k, .refl, hu, ⟨rfl, rfl, rfl, rfl, rfl, rfl⟩, ho⟩
  | @work st st1 st' hw hl hov _ ih =>
    rintro s k ⟨since, st0⟩ hu rfl rfl hc hg ho hb
    dsimp only at hw hl hg
    obtain ⟨s1, k1, g1, g2, g3, g4⟩ := ih (s.put j (k.goes a ⟨since, st1⟩)) (k.goes a ⟨since, st1⟩) ⟨since, st1⟩
      (under_goes hu st1) rfl rfl hc (Iterations.good_work hg hw)
      (none_put ho (none_goes ho hu.1 hov))
      (fun n => (busy_put (k' := k.goes a ⟨since, st1⟩) hu.1 rfl rfl).trans (hb n))
    refine ⟨s1, k1, ?_, g2, same_goes.trans g3, g4⟩
    refine Leads.trans (.step .refl ?_) g1
    rcases hl with hl | ⟨n, hl⟩
    · exact Step.quiet hu hw hl
    · exact Step.ended hu hw hl (hb _)
  | @idle st st1 st' hw hcn _ ih =>
    rintro s k ⟨since, st0⟩ hu rfl rfl hc hg ho hb
    dsimp only at hw hg hcn
    have hov : st1.overflow = false := by
      rw [(Iterations.idle_frame hw).1]
      exact ho k (List.mem_of_getElem? hu.1) a _ hu.2.2
    obtain ⟨s1, k1, g1, g2, g3, g4⟩ := ih (s.put j (k.goes a ⟨since, st1⟩)) (k.goes a ⟨since, st1⟩) ⟨since, st1⟩
      (under_goes hu st1) rfl rfl hc (Iterations.good_idle hg hw (by rw [hcn]; exact hg.live))
      (none_put ho (none_goes ho hu.1 hov))
      (fun n => (busy_put (k' := k.goes a ⟨since, st1⟩) hu.1 rfl rfl).trans (hb n))
    refine ⟨s1, k1, ?_, g2, same_goes.trans g3, g4⟩
    exact Leads.trans (.step .refl (Step.idle hu hw (by rw [hcn, hg.live, hc]))) g1

theorem fits (hp : LoopTest w.cfg) (he : EndableTest w.cfg) (hm : x.proto ∈ w.cfg.actions) (now : Int) (b : Bool) :
    (Iterations.params x.proto now b).limit < 2 ^ 31 ∨
    ((Iterations.params x.proto now b).openLoop = false ∧ (Iterations.params x.proto now b).timeLimit ≠ .future) := by
  have hl := hp.limited _ hm
  have ho := he.openLoops _ hm
  unfold Iterations.params
  cases hi : x.proto.iterations with
  | none => left; exact show (1 : Int) < 2 ^ 31 by decide
  | some it =>
    obtain ⟨h1, h2⟩ := hl it hi
    have h3 := ho it hi
    dsimp only [Option.getD_some]
    cases hc : it.maxIterationCount with
    | some n =>
      rw [hc] at h2
      left
      exact h2.2
    | none =>
      rw [hc] at h2 h3
      right
      constructor
      · cases hh : it.openLoopIntervalNs with
        | none => rfl
        | some q => exact absurd rfl (h3 (by rw [hh]; simp))
      · have := h2.1
        cases hd : it.maxDurationUs with
        | none => exact absurd hd this
        | some us => simp

theorem initiates (hp : LoopTest w.cfg) (hm : x.proto ∈ w.cfg.actions) (now : Int) (b : Bool) :
    ∃ st, Iterations.initiate x.proto now b false 0 = .ok st ∧ st.overflow = false := by
  obtain ⟨h1, -⟩ := limit_params now b (hp.limited _ hm)
  have hact : (Iterations.params x.proto now b).activity = false := by
    unfold Iterations.params
    cases hk : x.proto.kind with
    | activity n => exact absurd hk (hp.activities _ hm n)
    | _ => rfl
  unfold Iterations.initiate Iterations.begin
  dsimp only
  cases (Iterations.params x.proto now b).openLoop with
  | true =>
    rw [if_pos rfl, hact, if_neg (by simp)]
    exact ⟨_, rfl, rfl⟩
  | false =>
    rw [if_neg (by simp), if_neg (by omega)]
    exact ⟨_, rfl, rfl⟩

/-- An action that is under way, and does not wait for RPCs or lists, goes on. -/
theorem ahead_under (hs : SoundTest e w) (hp : LoopTest w.cfg) (he : EndableTest w.cfg) (hf : FanOuts w.cfg fan)
    (hc : ClientsDeclared w.cfg) {s1 : State} (h : Sim w s ops t) (hlead : Leads w s s1) (ho : NumbersFit s1)
    (hu : UnderWay s1 j a k x u) (hcall : (k.main.acts a).called = false) (hb : ∀ n, busy s1 j a n = false) :
    Ahead w s ops := by
  obtain ⟨ops1, t1, h1, -⟩ := leads_next hs hp hf h hlead
  have hk := h1.inv.jobs j k hu.1
  obtain ⟨hg, -, -, -, h4⟩ := under_known hk hu
  have hr : reports u.state.log = 0 := by
    apply Classical.byContradiction
    intro hne
    rw [h4.2 (Nat.pos_of_ne_zero hne)] at hcall
    cases hcall
  have hm := proto_mem hs hk.entry hu.2.1
  obtain ⟨st1, st2, g1, g2, g3, g4⟩ := Iterations.drive hg (ho k (List.mem_of_getElem? hu.1) a u hu.2.2) hr
    (fits hp he hm _ _)
  obtain ⟨s2, k2, q1, q2, q3, q4⟩ := lift_glide (w := w) g1 s1 k u hu rfl rfl hk.live hg ho hb
  obtain ⟨ops2, t2, h2, -⟩ := leads_next hs hp hf h1 q1
  have hk2 := h2.inv.jobs j k2 q2.1
  have hw : Iterations.Work (k2.params x ⟨u.since, st1⟩) st1 st2 := by rw [q3.params]; exact g2
  have hlead2 := hlead.trans q1
  have hplace := entry_zero hs hk2.entry q2.2.1
  have hnone : NumbersFit (s2.put j (k2.goes a ⟨u.since, st2⟩)) := none_put q4 (none_goes q4 q2.1 g3)
  rcases g4 with ⟨n, b, τ, hl⟩ | hl
  · obtain ⟨left, hfr⟩ := fresh h2.inv q2 hw hl
    have hne : absAct k2 a ≠ absAct (k2.goes a ⟨u.since, st2⟩) a := by
      rw [hfr.old, hfr.new]
      intro hh
      injection hh with hh
      omega
    have hT := global_inv hs hf h2
    obtain ⟨i, sv, al, m1, m2, m3, m4⟩ := mayRun_names hs (hT.may _ _ (abs_get q2.1))
    have m1 : serviceOf w.cfg k2.engine = some i := m1
    have m3 : w.cfg.actionLists[k2.list]? = some al := m3
    obtain ⟨al', p1, p2, p3, -, -, p6⟩ := entry_at hs hplace
    rw [m3] at p1
    cases p1
    by_cases hrpc : ∃ nm, x.proto.kind = .rpc nm
    · obtain ⟨nm, hnm⟩ := hrpc
      have hwork := work_rpc hs hplace hnm fun _ => 0
      obtain ⟨i', r, sv', e1, e2, e3, e4, e5, e6, -⟩ := rpc_work hs hplace hwork
      have hrm := List.mem_of_getElem? e4
      have hcl := hc sv.name al x.proto r m4 (List.mem_of_getElem? m3) p3 (List.mem_of_getElem? p2) hrm e1
      obtain ⟨pl, hpl⟩ := serviceOf_some.1 m1
      obtain ⟨targets, ht⟩ := picks_exists hs e2 e3 e4 e5 e6 (hf r hrm) hpl m2 hcl
      refine ahead hs hp hf h hlead2 (.step .refl (Step.rpcs targets q2 hw hl hwork ht))
        (ne_act q2.1 (put_get q2.1) rfl q2.2.1 hne) ?_
      exact hnone
    · by_cases hlist : ∃ nm, x.proto.kind = .actionList nm
      · obtain ⟨nm, hnm⟩ := hlist
        have hwork := work_list hs hplace hnm fun _ => 0
        obtain ⟨m, al2, r1, r2, -⟩ := p6 nm hnm
        rw [r1, Int.toNat_natCast] at hwork
        obtain ⟨k3, hk3⟩ := opens_exists hs (List.getElem?_eq_some_iff.1 r2).1 k2.engine (.action j a n.toNat)
        refine ahead hs hp hf h hlead2 (.step .refl (Step.list q2 hw hl hwork hk3)) (ne_act (k' := k2.goes a ⟨u.since, st2⟩) q2.1 ?_ rfl q2.2.1 hne) ?_
        · have := put_get (k' := k2.goes a ⟨u.since, st2⟩) q2.1
          exact List.getElem?_append_left (List.getElem?_eq_some_iff.1 this).1 ▸ this
        · intro y hy
          rcases List.mem_append.1 hy with hy | hy
          · exact hnone y hy
          · rw [List.mem_singleton.1 hy]
            exact none_opens hk3
      · have hwork := work_other hs hplace (fun n hn => hrpc ⟨n, hn⟩) (fun n hn => hlist ⟨n, hn⟩) fun _ => 0
        exact ahead hs hp hf h hlead2 (.step .refl (Step.other q2 hw hl hwork))
          (ne_act q2.1 (put_get q2.1) rfl q2.2.1 hne) hnone
  · refine ahead hs hp hf h hlead2 (.step .refl (Step.allDone q2 hw hl))
      (ne_act (k' := { k2.goes a ⟨u.since, st2⟩ with main := ActionList.callback (k2.ctx w) a k2.main })
        q2.1 (put_get q2.1) rfl q2.2.1 ?_) ?_
    · obtain ⟨-, f1, f2, -, -⟩ := under_known hk2 q2
      have hcall2 : (k2.main.acts a).called = false := by rw [q3.main]; exact hcall
      have e1 : absAct k2 a = .running (itersOf k2 a - allStarts (logOf k2 a)) := by
        unfold absAct
        rw [if_neg (by simp [f1]), if_neg (by simp [f2]), if_neg (by simp [hcall2])]
      have e2 : absAct { k2.goes a ⟨u.since, st2⟩ with main := ActionList.callback (k2.ctx w) a k2.main } a =
          .finished := by
        unfold absAct
        dsimp only
        rw [ActionList.callback_acts, if_pos rfl]
        dsimp only
        rw [if_neg (by simp [f1]), if_neg (by simp [f2]), if_pos rfl]
      rw [e1, e2]
      exact fun hh => by cases hh
    · intro y hy
      rcases mem_set hy with rfl | hy
      · exact none_goes q4 q2.1 g3
      · exact q4 y hy

/-! ### The thread of a list -/

/-- All actions whose callbacks were called are taken note of. -/
theorem take_note (hs : SoundTest e w) (hp : LoopTest w.cfg) (hf : FanOuts w.cfg fan) (n : Nat) :
    ∀ (s : State) (k : Job) (ops : List Traffic.TOp) (t : Traffic.TState), Sim w s ops t → s.jobs[j]? = some k →
      k.main.phase ≠ .done → (∀ i, (k.main.acts i).started = true → (k.main.acts i).called = true) → NumbersFit s →
      k.main.pending.toNat = n →
      ∃ s' k', Leads w s s' ∧ s'.jobs[j]? = some k' ∧ NumbersFit s' ∧ k'.main.phase ≠ .done ∧
        k'.main.pending = 0 := by
  induction n with
  | zero =>
    intro s k ops t h hj hd hc ho hn
    have := (ActionList.inv_core (h.inv.jobs j k hj).main hd).1.pend
    exact ⟨s, k, .refl, hj, ho, hd, by omega⟩
  | succ n ih =>
    intro s k ops t h hj hd hc ho hn
    have hpd := (ActionList.inv_core (h.inv.jobs j k hj).main hd).1.pend
    obtain ⟨i, hi, hsc⟩ : ∃ i ∈ List.range (k.ctx w).size,
        ((k.main.acts i).started && !(k.main.acts i).closed) = true := by
      apply List.countP_pos_iff.1
      omega
    simp only [Bool.and_eq_true, Bool.not_eq_true'] at hsc
    have hst := Step.finish (w := w) hj (List.mem_range.1 hi) (hc i hsc.1) hsc.2
    obtain ⟨ops1, t1, h1, -⟩ := sim_step hs hp hf h hst
    obtain ⟨s', k', g1, g2, g3, g4, g5⟩ := ih _ { k with main := ActionList.finishAction i k.main } ops1 t1 h1
      (put_get hj) (by show (ActionList.finishAction i k.main).phase ≠ _; rw [ActionList.finish_phase]; exact hd) (by
        intro b hb
        have hb : ((ActionList.finishAction i k.main).acts b).started = true := hb
        show ((ActionList.finishAction i k.main).acts b).called = true
        rw [ActionList.finish_acts] at hb ⊢
        split
        · rename_i hbi
          subst hbi
          exact hc b hsc.1
        · rename_i hbi
          rw [if_neg hbi] at hb
          exact hc b hb)
      (none_put ho (ho k (List.mem_of_getElem? hj))) (by
        show (k.main.pending - 1).toNat = n
        omega)
    exact ⟨s', k', Leads.trans (.step .refl hst) g1, g2, g3, g4, g5⟩

theorem lift_main {c : ActionList.Ctx} {m m' : ActionList.State} (h : ActionList.MainSteps c m m') :
    ∀ (s : State) (k : Job), s.jobs[j]? = some k → k.ctx w = c → k.main = m → NumbersFit s →
      ∃ s', Leads w s s' ∧ s'.jobs[j]? = some { k with main := m' } ∧ NumbersFit s' := by
  induction h with
  | refl =>
    intro s k hj hc hm ho
    subst hm
    exact ⟨s, .refl, hj, ho⟩
  | @head m m1 m' hst _ ih =>
    intro s k hj hc hm ho
    subst hm hc
    have hnone : NumbersFit { jobs := s.jobs.set j { k with main := m1 }, calls := respond k.main m1 k.parent s.calls } := by
      intro y hy
      rcases mem_set hy with rfl | hy
      · exact ho k (List.mem_of_getElem? hj)
      · exact ho y hy
    obtain ⟨s', g1, g2, g3⟩ := ih { jobs := s.jobs.set j { k with main := m1 }, calls := respond k.main m1 k.parent s.calls }
      { k with main := m1 } (List.getElem?_set_self (List.getElem?_eq_some_iff.1 hj).1) rfl rfl hnone
    exact ⟨s', Leads.trans (.step .refl (.main hj hst)) g1, g2, g3⟩

/-- A list whose started actions are all done goes on. -/
theorem ahead_thread (hs : SoundTest e w) (hp : LoopTest w.cfg) (he : EndableTest w.cfg) (hf : FanOuts w.cfg fan)
    (hc : ClientsDeclared w.cfg) (hr : Reach w s) (h : Sim w s ops t) (ho : NumbersFit s)
    (hj : s.jobs[j]? = some k) (hd : k.main.phase ≠ .done)
    (hcall : ∀ i, (k.main.acts i).started = true → (k.main.acts i).called = true) : Ahead w s ops := by
  obtain ⟨s1, k1, g1, g2, g3, g4, g5⟩ := take_note hs hp hf _ s k ops t h hj hd hcall ho rfl
  obtain ⟨ops1, t1, h1, -⟩ := leads_next hs hp hf h g1
  have hk := h1.inv.jobs j k1 g2
  have hT := global_inv hs hf h1
  obtain ⟨hC, hS⟩ := ActionList.inv_core hk.main g4
  have hpd := hC.pend
  rw [g5] at hpd
  have hclosed : ∀ i, (k1.main.acts i).started = true → (k1.main.acts i).closed = true := by
    intro i hi
    have h0 : List.countP (fun i => (k1.main.acts i).started && !(k1.main.acts i).closed) (List.range (k1.ctx w).size) = 0 := by
      omega
    rw [List.countP_eq_zero] at h0
    have := h0 i (List.mem_range.2 (hC.started_lt i hi))
    simpa [hi] using this
  have hH : ActionList.Halted k1.main := by
    refine ⟨hclosed, g5, fun i hi => ?_, hk.live⟩
    cases hfn : (k1.main.acts i).finished with
    | true => exact .inl rfl
    | false => exact .inr ((hC.fl_mem i).2 ⟨hi, hfn⟩)
  have htidy := tidy hs hp he hf hc (Leads.reach hr g1) k1 (List.mem_of_getElem? g2)
  obtain ⟨svc, ht⟩ := tables_loaded hs k1.engine
  have hld : Spec.Loaded w.cfg svc (k1.ctx w) := ⟨e, _, k1.list, ht, hk.entry, rfl⟩
  have hph : k1.main.phase = .wait ∨ k1.main.phase = .checkCancel ∨ k1.main.phase = .exit ∨
      ∃ i, k1.main.phase = .scan i ∧ i ≤ (k1.ctx w).size := by
    cases hpp : k1.main.phase with
    | wait => exact .inl rfl
    | checkCancel => exact .inr (.inl rfl)
    | exit => exact .inr (.inr (.inl rfl))
    | scan i => exact .inr (.inr (.inr ⟨i, rfl, htidy.scan i hpp⟩))
    | drain => have := hS.drain hpp; rw [hk.live] at this; cases this
    | done => exact absurd hpp g4
    | crashed => exact absurd hpp htidy.crash
  obtain ⟨m', p1, p2⟩ := ActionList.thread_moves
    (all_run hs hp he hf hc hk.entry (hT.may _ _ (abs_get g2))) (ActionList.loaded_backwards hld) hH hph
  obtain ⟨s2, q1, q2, q3⟩ := lift_main p1 s1 k1 g2 rfl rfl g3
  refine ahead hs hp hf h g1 q1 ?_ q3
  by_cases hd2 : m'.phase = .done
  · exact ne_over g2 q2 g4 hd2
  · rcases p2 with p2 | ⟨i, p2, p3⟩
    · exact absurd p2 hd2
    · obtain ⟨ops2, t2, h2, -⟩ := leads_next hs hp hf h1 q1
      have hlt := (ActionList.inv_core (h2.inv.jobs j _ q2).main hd2).1.started_lt i p3
      have hget : k1.entry.listActions[i]? = some (k1.entry.listActions[i]'hlt) := List.getElem?_eq_getElem hlt
      refine ne_act g2 q2 rfl hget ?_
      have e1 : absAct k1 i = .waiting := by
        unfold absAct
        rw [if_pos p2]
      rw [e1]
      unfold absAct
      dsimp only
      rw [if_neg (by rw [p3]; simp)]
      split
      · exact fun hh => by cases hh
      · split
        · exact fun hh => by cases hh
        · exact fun hh => by cases hh

/-! ### The whole test -/

theorem open_busy {cfg : Traffic.Config} {n : Nat} (hT : Traffic.Inv cfg (fun _ => False) (abs s))
    (hb : busy s j a n = true) : ∃ x : Traffic.Action, 0 < Traffic.openIterations (abs s) j a x.iters := by
  unfold busy at hb
  rw [Bool.or_eq_true, List.any_eq_true, List.any_eq_true] at hb
  have key : ∀ (y : Traffic.Action) i, i < y.iters → Traffic.busy (abs s) j a i = true →
      ∃ x : Traffic.Action, 0 < Traffic.openIterations (abs s) j a x.iters := by
    intro y i hi hbi
    refine ⟨y, ?_⟩
    unfold Traffic.openIterations
    exact List.countP_pos_iff.2 ⟨i, List.mem_range.2 hi, hbi⟩
  rcases hb with ⟨r, hr, hb⟩ | ⟨y, hy, hb⟩
  · simp only [Bool.and_eq_true, decide_eq_true_eq, Bool.not_eq_true', decide_eq_false_iff_not] at hb
    obtain ⟨⟨⟨e1, e2⟩, e3⟩, e4⟩ := hb
    obtain ⟨c, hc⟩ := List.getElem?_of_mem hr
    obtain ⟨K, X, f, Y, -, -, -, m4, -⟩ := hT.made c _ (calls_get hc)
    refine key X _ m4 ?_
    unfold Traffic.busy
    rw [Bool.or_eq_true]
    left
    rw [List.any_eq_true]
    refine ⟨absCall s r, List.mem_of_getElem? (calls_get hc), ?_⟩
    simp only [Bool.and_eq_true, decide_eq_true_eq, Bool.not_eq_true', decide_eq_false_iff_not]
    exact ⟨⟨⟨e1, e2⟩, trivial⟩, e4⟩
  · simp only [Bool.and_eq_true, decide_eq_true_eq, Bool.not_eq_true', decide_eq_false_iff_not] at hb
    obtain ⟨e1, e2⟩ := hb
    obtain ⟨i, hi⟩ := List.getElem?_of_mem hy
    have hpar : (absJob s y).parent = .action j a (number s j a n) := by
      show absParent s y.parent = _
      rw [e1]
      rfl
    obtain ⟨-, K, X, Y, -, -, -, m4, -⟩ := hT.nested i _ _ _ _ (abs_get hi) hpar
    refine key X _ m4 ?_
    unfold Traffic.busy
    rw [Bool.or_eq_true]
    right
    rw [List.any_eq_true]
    refine ⟨absJob s y, List.mem_of_getElem? (abs_get hi), ?_⟩
    rw [hpar]
    simp only [decide_true, Bool.true_and, Bool.not_eq_true']
    exact decide_eq_false e2

theorem progress (hs : SoundTest e w) (hp : LoopTest w.cfg) (he : EndableTest w.cfg) (hf : FanOuts w.cfg fan)
    (hc : ClientsDeclared w.cfg) {layer : Str → Nat} (hy : LayeredServices w layer) (hth : ∀ g, w.threads g ≠ some 0)
    (hr : Reach w s) (h : Sim w s ops t) (ho : NumbersFit s) (hover : ¬ LoopsOver s) : Ahead w s ops := by
  apply Classical.byContradiction
  intro hno
  apply hover
  apply abs_over
  have hT := global_inv hs hf h
  refine Traffic.all_over (layered_global hs hc hy _) hT ?_ ?_ ?_
  · intro c R hR
    have hR : (s.calls.map (absCall s))[c]? = some R := hR
    rw [List.getElem?_map] at hR
    obtain ⟨r, hr, rfl⟩ := Option.map_eq_some_iff.1 hR
    have hlt := (List.getElem?_eq_some_iff.1 hr).1
    constructor
    · intro hst
      have hst : r.stage = .sent := hst
      refine hno (ahead hs hp hf h .refl (.step .refl (Step.deliver hr hst)) (ne_call hr (List.getElem?_set_self hlt) ?_) ho)
      rw [hst]
      dsimp only
      split <;> simp
    · intro hst
      have hst : r.stage = .answered := hst
      refine hno (ahead hs hp hf h .refl (.step .refl (Step.complete hr hst)) (ne_call hr (List.getElem?_set_self hlt) ?_) ho)
      rw [hst]
      simp
  · intro i K hK hov
    have hK : (s.jobs.map (absJob s))[i]? = some K := hK
    rw [List.getElem?_map] at hK
    obtain ⟨k, hk, rfl⟩ := Option.map_eq_some_iff.1 hK
    have hd : k.main.phase ≠ .done := of_decide_eq_false hov
    by_cases hb : ∃ b n, busy s i b n = true
    · obtain ⟨b, n, hb⟩ := hb
      obtain ⟨x, hx⟩ := open_busy hT hb
      exact ⟨b, x, hx⟩
    · exfalso
      apply hno
      have hfree : ∀ b n, busy s i b n = false := by
        intro b n
        cases hh : busy s i b n with
        | false => rfl
        | true => exact absurd ⟨b, n, hh⟩ hb
      have hok := h.inv.jobs i k hk
      obtain ⟨hC, hS⟩ := ActionList.inv_core hok.main hd
      by_cases hall : ∀ b, (k.main.acts b).started = true → (k.main.acts b).called = true
      · exact ahead_thread hs hp he hf hc hr h ho hk hd hall
      · obtain ⟨b, hb1, hb2⟩ : ∃ b, (k.main.acts b).started = true ∧ (k.main.acts b).called = false := by
          apply Classical.byContradiction
          intro hh
          apply hall
          intro b hb
          cases hcl : (k.main.acts b).called with
          | true => rfl
          | false => exact absurd ⟨b, hb, hcl⟩ hh
        have hlt : b < k.entry.listActions.length := hC.started_lt b hb1
        obtain ⟨x, hx⟩ : ∃ x, k.entry.listActions[b]? = some x := ⟨_, List.getElem?_eq_getElem hlt⟩
        have hsk : (k.main.acts b).skipped = false := by
          cases hh : (k.main.acts b).skipped with
          | false => rfl
          | true =>
            have := hC.closed_called b (hS.skip_closed b hh)
            rw [hb2] at this
            cases this
        have hstk := (tidy hs hp he hf hc hr k (List.mem_of_getElem? hk)).stuck b
        cases hun : k.under b with
        | some u => exact ahead_under hs hp he hf hc h .refl ho ⟨hk, hx, hun⟩ hb2 (hfree b)
        | none =>
          obtain ⟨st, hi1, hi2⟩ := initiates hp (proto_mem hs hok.entry hx) 0 k.warmup
          have hst := Step.setUp (w := w) (s := s) 0 0 hk hx hb1 hsk hstk hun (by rw [hok.live]; exact hi1)
          refine ahead_under hs hp he hf hc h (.step .refl hst) (none_put ho (none_goes ho hk hi2))
            ⟨put_get hk, hx, if_pos rfl⟩ hb2 fun n => ?_
          exact (busy_put (k' := k.goes b ⟨0, st⟩) hk rfl rfl).trans (hfree b n)
  · intro c R hR hst
    have hR' : (s.calls.map (absCall s))[c]? = some R := hR
    rw [List.getElem?_map] at hR'
    obtain ⟨r, hrc, rfl⟩ := Option.map_eq_some_iff.1 hR'
    have hst : r.stage = .queued := hst
    show w.threads r.target ≠ none ∧ _
    obtain ⟨l, hl⟩ : ∃ l, (globalConfig w (fanAt w.cfg fan)).handler r.rpc = some l := by
      cases hh : (globalConfig w (fanAt w.cfg fan)).handler r.rpc with
      | some l => exact ⟨l, rfl⟩
      | none => exact absurd hst (hT.unhandled c _ hR hh).1
    obtain ⟨-, -, -, -, -, -, -, -, hsv, -⟩ := hT.made c _ hR
    have hsv : (globalConfig w (fanAt w.cfg fan)).servers r.rpc r.target = true := hsv
    obtain ⟨i, sv, al, m1, m2, m3, -⟩ := mayRun_names hs (.handler hsv hl)
    have hh : handlerOf (tablesOf w r.target) r.rpc = some l := by
      unfold tablesOf
      rw [m1, Option.getD_some, same_handler hs _ m2 m1 hsv]
      exact hl
    cases hfr : freeThread w s r.target with
    | true =>
      exfalso
      apply hno
      obtain ⟨k3, hk3⟩ := opens_exists hs (List.getElem?_eq_some_iff.1 m3).1 r.target (.call c)
      have hlt := (List.getElem?_eq_some_iff.1 hrc).1
      refine ahead hs hp hf h .refl (.step .refl (Step.dispatch hrc hst hh hfr hk3))
        (ne_call hrc (List.getElem?_set_self hlt) (by rw [hst]; simp)) ?_
      intro y hy
      rcases List.mem_append.1 hy with hy | hy
      · exact ho y hy
      · rw [List.mem_singleton.1 hy]
        exact none_opens hk3
    | false =>
      unfold freeThread at hfr
      cases hn : w.threads r.target with
      | none => rw [hn] at hfr; cases hfr
      | some n =>
        rw [hn] at hfr
        refine ⟨by simp, ?_⟩
        have hn0 : n ≠ 0 := fun h0 => hth r.target (by rw [hn, h0])
        have hcnt := of_decide_eq_false hfr
        obtain ⟨y, hy, hyp⟩ := List.countP_pos_iff.1 (Nat.lt_of_lt_of_le (Nat.pos_of_ne_zero hn0) (Nat.le_of_not_lt hcnt))
        obtain ⟨i', hi'⟩ := List.getElem?_of_mem hy
        simp only [Bool.and_eq_true, decide_eq_true_eq, Bool.not_eq_true', decide_eq_false_iff_not] at hyp
        exact ⟨i', absJob s y, abs_get hi', hyp.1.1, decide_eq_false hyp.2⟩

end Distbench.Loops
