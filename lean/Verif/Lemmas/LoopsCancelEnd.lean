import Verif.Lemmas.LoopsCancelMark
import Verif.Lemmas.LoopsProgress

/-! Whole tests that are cancelled can be brought to their end. -/

namespace Distbench.LoopsCancel
open Tables Services Whole Spec Loops

/-- What is assumed of a test, but for its thread pools. -/
structure Rests (e : Env) (w : Test) (fan level : Str → Nat) : Prop where
  sound : SoundTest e w
  test : CancelTest w.cfg
  kinds : Kinds w.cfg
  fans : FanOuts w.cfg fan
  levels : NameLevels w.cfg level
  clients : ClientsDeclared w.cfg

/-- What is assumed of a test. -/
structure Ends (e : Env) (w : Test) (fan level layer : Str → Nat) : Prop extends Rests e w fan level where
  layered : LayeredServices w layer
  threads : ∀ g, w.threads g ≠ some 0

/-- A state after all was cancelled. -/
structure After (w : Test) (s : State) : Prop where
  reach : Reach w s
  cancelled : AllCancelled w.cfg s
  fit : NumbersFit s.base
  room : ∀ (j a : Nat) (k : Job) (u : Under) (x : ActionEntry), s.base.jobs[j]? = some k → k.under a = some u →
    k.entry.listActions[a]? = some x → u.state.next ≠ (k.params x u).limit →
    0 < Iterations.readsNo u.state.threads → u.state.next + 1 < 2 ^ 31

variable {e : Env} {w : Test} {fan level layer : Str → Nat} {s s' : State} {j a : Nat} {k k' : Job}

/-- The levels of the lists. -/
abbrev levelAt (w : Test) (level : Str → Nat) : Nat → Nat := byPlace w.cfg level

/-- The lists that handle RPCs. -/
abbrev handlerAt (w : Test) (fan : Str → Nat) : Nat → Option Nat := (globalConfig w (fanAt w.cfg fan)).handler

/-- What is left, less than before, after a step. -/
def GoesOn (w : Test) (fan level : Str → Nat) (s : State) : Prop :=
  ∃ s', Step w s s' ∧
    Less (marks jobLeft (levelAt w level) (handlerAt w fan) s'.base) (marks jobLeft (levelAt w level) (handlerAt w fan) s.base)

theorem goes_run {b : Loops.State} (hst : Loops.Step w s.base b)
    (hsent : ∀ (c : Nat) r, s.base.calls[c]? = some r → r.stage = .sent → b.calls[c]? = some r)
    (hless : Less (marks jobLeft (levelAt w level) (handlerAt w fan) b) (marks jobLeft (levelAt w level) (handlerAt w fan) s.base)) :
    GoesOn w fan level s := by
  refine ⟨settle s b, .run hst fun c r h1 h2 _ => hsent c r h1 h2, ?_⟩
  rw [marks_told (fun _ => left_tell) (settle_told s b)]
  exact hless

/-- A run has less to do. -/
theorem less_turn (hE : Rests e w fan level) (hr : Reach w s) {b : Loops.State} {left : Job → Nat} {xs : List Job}
    {rs : List Traffic.Call} (hj : s.base.jobs[j]? = some k)
    (hjobs : b.jobs = s.base.jobs.set j k' ++ xs)
    (hcalls : b.calls = respond k.main k'.main k.parent s.base.calls ++ rs)
    (hl : k'.list = k.list) (hlt : left k' < left k)
    (hresp : responses k'.main.log = responses k.main.log ∨
      responses k.main.log = 0 ∧ responses k'.main.log = 1)
    (hxs : ∀ x ∈ xs, ∃ (a : Nat) (y : ActionEntry), k.entry.listActions[a]? = some y ∧ toWork (fun _ => 0) y = .list x.list)
    (hrs : ∀ r ∈ rs, ∃ (a : Nat) (y : ActionEntry) (f : Nat), k.entry.listActions[a]? = some y ∧
      toWork (fun _ => 0) y = .rpc r.rpc f) :
    (∀ (c : Nat) r, s.base.calls[c]? = some r → r.stage = .sent → b.calls[c]? = some r) ∧
    Less (marks left (levelAt w level) (handlerAt w fan) b) (marks left (levelAt w level) (handlerAt w fan) s.base) := by
  obtain ⟨hP, hA⟩ := reach_inv hE.sound hE.test hr
  have hrun : ∀ (c : Nat) r, k.parent = .call c → s.base.calls[c]? = some r →
      responses k.main.log < responses k'.main.log → r.stage = .running := by
    intro c r h1 h2 h3
    rw [(hA.stage j k hj c r h1 h2).2]
    rcases hresp with h | h <;> omega
  have hlev := levels_global hE.sound hE.levels (fanAt w.cfg fan)
  have hact : ∀ (a : Nat) y, k.entry.listActions[a]? = some y → toAction (fanAt w.cfg fan) y ∈
      (globalConfig w (fanAt w.cfg fan)).actions k.list := fun a y hy =>
    List.mem_map_of_mem (List.mem_of_getElem? (entry_zero hE.sound (hA.fine j k hj).entry hy))
  refine ⟨?_, turn_less hj hjobs hcalls hl hlt ?_ ?_ hrun⟩
  · intro c r hc hs
    have hlt := (List.getElem?_eq_some_iff.1 hc).1
    rw [hcalls, List.getElem?_append_left (by rw [respond_length]; exact hlt), respond_get hc, if_neg]
    rintro ⟨h1, h2⟩
    rw [hrun c r h2 hc h1] at hs
    cases hs
  · intro x hx
    obtain ⟨a, y, h1, h2⟩ := hxs x hx
    exact hlev _ _ ⟨_, hact a y h1, .inl (list_work h2)⟩
  · intro r hr
    obtain ⟨a, y, f, h1, h2⟩ := hrs r hr
    unfold callLevel
    cases hh : handlerAt w fan r.rpc with
    | none => dsimp only; omega
    | some l =>
      dsimp only
      have h3 : toWork (fanAt w.cfg fan) y = .rpc r.rpc (fanAt w.cfg fan r.rpc) := by
        obtain ⟨i, rr, sv, g1, g2, -⟩ := rpc_work hE.sound (entry_zero hE.sound (hA.fine j k hj).entry h1) h2
        rw [work_rpc hE.sound (entry_zero hE.sound (hA.fine j k hj).entry h1) g1, g2]
        rfl
      have : levelAt w level l < levelAt w level k.list := hlev k.list l ⟨_, hact a y h1, .inr ⟨_, _, h3, hh⟩⟩
      show 2 * levelAt w level l + 3 < _
      omega

/-- A run goes on. -/
theorem goes_turn (hE : Rests e w fan level) (hr : Reach w s) {b : Loops.State} {xs : List Job}
    {rs : List Traffic.Call} (hst : Loops.Step w s.base b) (hj : s.base.jobs[j]? = some k)
    (hjobs : b.jobs = s.base.jobs.set j k' ++ xs)
    (hcalls : b.calls = respond k.main k'.main k.parent s.base.calls ++ rs)
    (hl : k'.list = k.list) (hlt : jobLeft k' < jobLeft k)
    (hresp : responses k'.main.log = responses k.main.log ∨
      responses k.main.log = 0 ∧ responses k'.main.log = 1)
    (hxs : ∀ x ∈ xs, ∃ (a : Nat) (y : ActionEntry), k.entry.listActions[a]? = some y ∧
      toWork (fun _ => 0) y = .list x.list)
    (hrs : ∀ r ∈ rs, ∃ (a : Nat) (y : ActionEntry) (f : Nat), k.entry.listActions[a]? = some y ∧
      toWork (fun _ => 0) y = .rpc r.rpc f) :
    GoesOn w fan level s := by
  obtain ⟨h1, h2⟩ := less_turn hE hr hj hjobs hcalls hl hlt hresp hxs hrs
  exact goes_run hst h1 h2

/-- The run is the same but for one action. -/
theorem left_goes {u : Under} {st : Iterations.State} {since : Int} (ha : a < k.entry.listActions.length)
    (hc : (k.main.acts a).called = false) (hcl : (k.main.acts a).closed = false) (hu : k.under a = some u)
    (hlt : Iterations.left (copiesAt k a) st < Iterations.left (copiesAt k a) u.state) :
    jobLeft (k.goes a ⟨since, st⟩) < jobLeft k := by
  refine left_act (a := a) rfl rfl (fun b hb => ?_) ha ?_
  · unfold actLeft
    have : (k.goes a ⟨since, st⟩).under b = k.under b := if_neg hb
    rw [this]
    rfl
  · have h1 : actLeft (k.goes a ⟨since, st⟩) a = 2 + Iterations.left (copiesAt k a) st := by
      unfold actLeft
      have : (k.goes a ⟨since, st⟩).under a = some ⟨since, st⟩ := if_pos rfl
      rw [this]
      show (if (k.main.acts a).closed then 0 else if (k.main.acts a).called then 1 else _) = _
      rw [hc, hcl]
      rfl
    have h2 : actLeft k a = 2 + Iterations.left (copiesAt k a) u.state := by
      unfold actLeft
      rw [hc, hcl, hu]
      rfl
    omega

theorem initiates_any (hp : CancelTest w.cfg) {x : ActionEntry} (hm : x.proto ∈ w.cfg.actions) (now : Int) (b c : Bool) :
    ∃ st, Iterations.initiate x.proto now b c 0 = .ok st := by
  obtain ⟨h1, h2, -, h3⟩ := closed_params now b (hp.closedLoops _ hm) (hp.limited _ hm)
  unfold Iterations.initiate Iterations.begin
  dsimp only
  rw [h3, if_neg (by simp), if_neg (by omega)]
  exact ⟨_, rfl⟩

/-- A run that is not over goes on, or has an iteration that waits. -/
theorem job_goes (hE : Rests e w fan level) (hA : After w s) (hj : s.base.jobs[j]? = some k)
    (hd : k.main.phase ≠ .done) : GoesOn w fan level s ∨ ∃ a n, busy s.base j a n = true := by
  obtain ⟨hs, hp, hkd, hf, hlv, hc⟩ := hE
  have hE : Rests e w fan level := ⟨hs, hp, hkd, hf, hlv, hc⟩
  have hr := hA.reach
  obtain ⟨hP, hAc⟩ := reach_inv hs hp hr
  have hk := hAc.fine j k hj
  obtain ⟨hC, hS⟩ := ActionList.inv_core hk.main hd
  have htidy := reach_tidy hs hp hkd hf hc hr k (List.mem_of_getElem? hj)
  obtain ⟨i, hi⟩ := reach_service hs hp hf hr hj
  obtain ⟨hcan, hucan⟩ := (reach_flags hr).told j k hj (hA.cancelled _ i hi)
  have hq := quiet_list hs hp hk.entry
  by_cases hw : k.main.phase ≠ .drain ∨ k.main.pending = 0
  · obtain ⟨m, h1, h2⟩ := thread_moves hk (reach_all_run hs hp hkd hf hc hr hj) htidy hq hcan hd hw
    left
    exact goes_turn (k' := { k with main := m }) hE hr (Step.main hj h1) hj (List.append_nil _).symm
      (List.append_nil _).symm rfl h2 (ActionList.main_frame hk.main hq h1).resp
      (fun x hx => absurd hx List.not_mem_nil) (fun x hx => absurd hx List.not_mem_nil)
  · obtain ⟨b, hb, hb1, hb2⟩ : ∃ b, b < k.entry.listActions.length ∧ (k.main.acts b).started = true ∧
        (k.main.acts b).closed = false := by
      have hpd := hC.pend
      have hne : k.main.pending ≠ 0 := fun h => hw (.inr h)
      obtain ⟨b, hb, hbp⟩ : ∃ b ∈ List.range (k.ctx w).size,
          ((k.main.acts b).started && !(k.main.acts b).closed) = true := by
        apply List.countP_pos_iff.1
        omega
      simp only [Bool.and_eq_true, Bool.not_eq_true'] at hbp
      exact ⟨b, List.mem_range.1 hb, hbp.1, hbp.2⟩
    obtain ⟨x, hx⟩ : ∃ x, k.entry.listActions[b]? = some x := ⟨_, List.getElem?_eq_getElem hb⟩
    have hcp : copiesAt k b = (Iterations.params x.proto 0 false).copies := by
      unfold copiesAt
      rw [hx]
    cases hcall : (k.main.acts b).called with
    | true =>
      left
      refine goes_turn (k' := { k with main := ActionList.finishAction b k.main }) (xs := []) (rs := []) hE hr
        (Step.finish hj hb hcall hb2) hj (List.append_nil _).symm ?_ rfl ?_ (.inl (ActionList.responses_cons_other (by simp)))
        (fun x hx => absurd hx List.not_mem_nil) (fun x hx => absurd hx List.not_mem_nil)
      · show s.base.calls = respond k.main (ActionList.finishAction b k.main) k.parent s.base.calls ++ []
        have : responses (ActionList.finishAction b k.main).log = responses k.main.log :=
          ActionList.responses_cons_other (by simp)
        unfold respond
        rw [this, if_neg (by omega), List.append_nil]
      · refine left_act (a := b) rfl rfl (fun i hi => ?_) hb ?_
        · refine actLeft_congr ?_ ?_ <;> rw [ActionList.finish_acts, if_neg hi]
        · have h1 : actLeft { k with main := ActionList.finishAction b k.main } b = 0 := by
            unfold actLeft
            rw [if_pos]
            show ((ActionList.finishAction b k.main).acts b).closed = true
            rw [ActionList.finish_acts, if_pos rfl]
          have h2 : actLeft k b = 1 := by
            unfold actLeft
            rw [hb2, hcall]
            rfl
          omega
    | false =>
      have hsk : (k.main.acts b).skipped = false := by
        cases hh : (k.main.acts b).skipped with
        | false => rfl
        | true => rw [hS.skip_closed b hh] at hb2; cases hb2
      cases hun : k.under b with
      | none =>
        left
        obtain ⟨st, hst⟩ := initiates_any hp (proto_mem hs hk.entry hx) 0 k.warmup k.main.canceled
        obtain ⟨-, -, -, g2, g3, -⟩ := steady_initiate hp (proto_mem hs hk.entry hx) hst
        refine goes_turn (k' := k.goes b ⟨0, st⟩) (xs := []) (rs := []) hE hr
          (Step.setUp 0 0 hj hx hb1 hsk (htidy.stuck b) hun hst) hj (List.append_nil _).symm ?_ rfl ?_ (.inl rfl)
          (fun x hx => absurd hx List.not_mem_nil) (fun x hx => absurd hx List.not_mem_nil)
        · show s.base.calls = respond k.main k.main k.parent s.base.calls ++ []
          rw [respond_same, List.append_nil]
        · refine left_act (a := b) rfl rfl (fun i hi => ?_) hb ?_
          · unfold actLeft
            have : (k.goes b ⟨0, st⟩).under i = k.under i := if_neg hi
            rw [this]
            rfl
          · have h1 : actLeft (k.goes b ⟨0, st⟩) b = 2 + Iterations.left (copiesAt k b) st := by
              unfold actLeft
              have : (k.goes b ⟨0, st⟩).under b = some ⟨0, st⟩ := if_pos rfl
              rw [this]
              show (if (k.main.acts b).closed then 0 else if (k.main.acts b).called then 1 else _) = _
              rw [hcall, hb2]
              rfl
            have h2 : actLeft k b = 3 + 3 * (copiesAt k b).toNat := by
              unfold actLeft
              rw [hcall, hb2, hun]
              rfl
            have h3 : Iterations.left (copiesAt k b) st = 3 * (copiesAt k b).toNat := by
              unfold Iterations.left
              rw [g2, g3]
              simp [Iterations.cost]
            omega
      | some u =>
        obtain ⟨x', g1, g2, g3, g4, g5, g6⟩ := hk.under b u hun
        rw [hx] at g1
        cases g1
        have hr0 : reports u.state.log = 0 := by
          apply Classical.byContradiction
          intro hne
          rw [g6.2 (Nat.pos_of_ne_zero hne)] at hcall
          cases hcall
        obtain ⟨st, hwk, hmv⟩ := Iterations.moves g2 (hA.fit k (List.mem_of_getElem? hj) b u hun) (hucan b u hun) hr0
          (hA.room j b k u x hj hun hx)
        rw [copies_params, ← hcp] at hmv
        have huw : UnderWay s.base j b k x u := ⟨hj, hx, hun⟩
        have hplace := entry_zero hs hk.entry hx
        have hnone : respond k.main k.main k.parent s.base.calls = s.base.calls := respond_same _ _ _
        rcases hmv with ⟨⟨n, bb, t, hl⟩, hlt⟩ | ⟨hl, hlt⟩ | hl | ⟨n, hl, hlt⟩
        · left
          have hjl := left_goes (since := u.since) hb hcall hb2 hun hlt
          by_cases hrpc : ∃ nm, x.proto.kind = .rpc nm
          · obtain ⟨nm, hnm⟩ := hrpc
            have hwork := work_rpc hs hplace hnm fun _ => 0
            obtain ⟨i', r, sv', e1, e2, e3, e4, e5, e6, -⟩ := rpc_work hs hplace hwork
            obtain ⟨i, sv, al, m1, m2, m3, m4⟩ := mayRun_names hs (may_run_job hs hf hP hAc hj)
            obtain ⟨al', p1, p2, p3, -, -, p6⟩ := entry_at hs hplace
            rw [m3] at p1
            cases p1
            have hrm := List.mem_of_getElem? e4
            have hcl := hc sv.name al x.proto r m4 (List.mem_of_getElem? m3) p3 (List.mem_of_getElem? p2) hrm e1
            obtain ⟨pl, hpl⟩ := serviceOf_some.1 m1
            obtain ⟨targets, ht⟩ := picks_exists hs e2 e3 e4 e5 e6 (hf r hrm) hpl m2 hcl
            refine goes_turn (k' := k.goes b ⟨u.since, st⟩) (xs := [])
              (rs := Traffic.newCalls x.rpcIndex.toNat j b n.toNat targets) hE hr
              (Step.rpcs targets huw hwk hl hwork ht) hj (List.append_nil _).symm ?_ rfl hjl (.inl rfl)
              (fun x hx => absurd hx List.not_mem_nil) ?_
            · show s.base.calls ++ _ = respond k.main k.main k.parent s.base.calls ++ _
              rw [hnone]
            · intro r hr
              unfold Traffic.newCalls at hr
              obtain ⟨t, ht, rfl⟩ := List.mem_map.1 hr
              exact ⟨b, x, _, hx, hwork⟩
          · by_cases hlist : ∃ nm, x.proto.kind = .actionList nm
            · obtain ⟨nm, hnm⟩ := hlist
              have hwork := work_list hs hplace hnm fun _ => 0
              obtain ⟨al', p1, p2, p3, -, -, p6⟩ := entry_at hs hplace
              obtain ⟨m, al2, r1, r2, -⟩ := p6 nm hnm
              rw [r1, Int.toNat_natCast] at hwork
              obtain ⟨k3, hk3⟩ := opens_exists hs (List.getElem?_eq_some_iff.1 r2).1 k.engine (.action j b n.toNat)
              refine goes_turn (k' := k.goes b ⟨u.since, st⟩) (xs := [k3]) (rs := []) hE hr
                (Step.list huw hwk hl hwork hk3) hj rfl ?_ rfl hjl (.inl rfl) ?_
                (fun x hx => absurd hx List.not_mem_nil)
              · show s.base.calls = respond k.main k.main k.parent s.base.calls ++ []
                rw [hnone, List.append_nil]
              · intro y hy
                rw [List.mem_singleton] at hy
                subst hy
                exact ⟨b, x, hx, by rw [(opens_same hk3).2.1]; exact hwork⟩
            · have hwork := work_other hs hplace (fun n hn => hrpc ⟨n, hn⟩) (fun n hn => hlist ⟨n, hn⟩) fun _ => 0
              refine goes_turn (k' := k.goes b ⟨u.since, st⟩) (xs := []) (rs := []) hE hr
                (Step.other huw hwk hl hwork) hj (List.append_nil _).symm ?_ rfl hjl (.inl rfl)
                (fun x hx => absurd hx List.not_mem_nil) (fun x hx => absurd hx List.not_mem_nil)
              show s.base.calls = respond k.main k.main k.parent s.base.calls ++ []
              rw [hnone, List.append_nil]
        · left
          refine goes_turn (k' := k.goes b ⟨u.since, st⟩) (xs := []) (rs := []) hE hr
            (Step.quiet huw hwk hl) hj (List.append_nil _).symm ?_ rfl
            (left_goes (since := u.since) hb hcall hb2 hun hlt) (.inl rfl)
            (fun x hx => absurd hx List.not_mem_nil) (fun x hx => absurd hx List.not_mem_nil)
          show s.base.calls = respond k.main k.main k.parent s.base.calls ++ []
          rw [hnone, List.append_nil]
        · left
          refine goes_turn (k' := { k.goes b ⟨u.since, st⟩ with main := ActionList.callback (k.ctx w) b k.main })
            (xs := []) (rs := []) hE hr
            (Step.allDone huw hwk hl) hj (List.append_nil _).symm (List.append_nil _).symm rfl ?_
            (ActionList.callback_resp hC hcall)
            (fun x hx => absurd hx List.not_mem_nil) (fun x hx => absurd hx List.not_mem_nil)
          refine left_act (a := b) rfl (ActionList.callback_phase _ _ _) (fun i hi => ?_) hb ?_
          · unfold actLeft
            have h1 : ({ k.goes b ⟨u.since, st⟩ with main := ActionList.callback (k.ctx w) b k.main } : Job).under i =
                k.under i := if_neg hi
            rw [h1]
            dsimp only
            rw [ActionList.callback_acts, if_neg hi]
            rfl
          · have h1 : actLeft { k.goes b ⟨u.since, st⟩ with main := ActionList.callback (k.ctx w) b k.main } b = 1 := by
              unfold actLeft
              dsimp only
              rw [ActionList.callback_acts, if_pos rfl]
              dsimp only
              rw [hb2]
              rfl
            have h2 : actLeft k b = 2 + Iterations.left (copiesAt k b) u.state := by
              unfold actLeft
              rw [hcall, hb2, hun]
              rfl
            omega
        · cases hbz : busy s.base j b n.toNat with
          | true => exact .inr ⟨b, _, hbz⟩
          | false =>
            left
            refine goes_turn (k' := k.goes b ⟨u.since, st⟩) (xs := []) (rs := []) hE hr
              (Step.ended huw hwk hl hbz) hj (List.append_nil _).symm ?_ rfl
              (left_goes (since := u.since) hb hcall hb2 hun hlt) (.inl rfl)
              (fun x hx => absurd hx List.not_mem_nil) (fun x hx => absurd hx List.not_mem_nil)
            show s.base.calls = respond k.main k.main k.parent s.base.calls ++ []
            rw [hnone, List.append_nil]

/-- Nothing that goes on, all is over. -/
theorem over_or_goes (hE : Ends e w fan level layer) (hAf : After w s) (hno : ¬ GoesOn w fan level s) :
    LoopsOver s.base := by
  have hr := hAf.reach
  obtain ⟨hP, hA⟩ := reach_inv hE.sound hE.test hr
  have hnot : ∀ (c : Nat) r, s.base.calls[c]? = some r → r.stage ≠ .sent ∧ r.stage ≠ .answered := by
    intro c r hc
    constructor
    · intro hst
      apply hno
      cases hrf : s.refusing r.target with
      | true =>
        refine ⟨_, .refuse (c := c) (call := r) hc hst hrf, ?_⟩
        refine call_less (st := .answered) (xs := []) hc (List.append_nil _).symm rfl ?_
          (fun x hx => absurd hx List.not_mem_nil)
        rw [hst]
        simp [stageNumber]
      | false =>
        refine ⟨settle s _, .run (Step.deliver hc hst) fun c' r' h1 h2 h3 => ?_, ?_⟩
        · show (s.base.calls.set c _)[c']? = some r'
          rw [List.getElem?_set_ne, h1]
          rintro rfl
          rw [hc] at h1
          cases h1
          rw [hrf] at h3
          cases h3
        · rw [marks_told (fun _ => left_tell) (settle_told s _)]
          refine call_less (r := r) (c := c) (xs := []) hc (List.append_nil _).symm rfl ?_
            (fun x hx => absurd hx List.not_mem_nil)
          rw [hst]
          split <;> simp [stageNumber]
    · intro hst
      apply hno
      refine goes_run (Step.complete hc hst) ?_ ?_
      · intro c' r' h1 h2
        show (s.base.calls.set c _)[c']? = some r'
        rw [List.getElem?_set_ne, h1]
        rintro rfl
        rw [hc] at h1
        cases h1
        rw [hst] at h2
        cases h2
      · refine call_less (st := .completed) (xs := []) hc (List.append_nil _).symm rfl ?_
          (fun x hx => absurd hx List.not_mem_nil)
        rw [hst]
        simp [stageNumber]
  have hqueue : ∀ (c : Nat) r, s.base.calls[c]? = some r → r.stage = .queued →
      w.threads r.target ≠ none ∧
        ∃ (i : Nat) (y : Job), s.base.jobs[i]? = some y ∧ y.engine = r.target ∧ y.main.phase ≠ .done := by
    intro c r hc hst
    have hh := hA.queued c r hc hst
    obtain ⟨l, hl⟩ := Option.isSome_iff_exists.1 hh
    have hlg := hl
    rw [call_handler hE.sound hE.fans hP hA hc] at hlg
    have hsv := call_server hE.sound hE.fans hP hA hc
    obtain ⟨i, sv, al, m1, m2, m3, -⟩ := mayRun_names hE.sound (.handler hsv hlg)
    cases hfr : freeThread w s.base r.target with
    | true =>
      exfalso
      apply hno
      obtain ⟨k3, hk3⟩ := opens_exists hE.sound (List.getElem?_eq_some_iff.1 m3).1 r.target (.call c)
      refine goes_run (Step.dispatch hc hst hl hfr hk3) ?_ ?_
      · intro c' r' h1 h2
        show (s.base.calls.set c _)[c']? = some r'
        rw [List.getElem?_set_ne, h1]
        rintro rfl
        rw [hc] at h1
        cases h1
        rw [hst] at h2
        cases h2
      · refine call_less (st := .running) (xs := [k3]) hc rfl rfl ?_ ?_
        · rw [hst]
          simp [stageNumber]
        · intro x hx
          rw [List.mem_singleton] at hx
          subst hx
          rw [(opens_same hk3).2.1]
          unfold callLevel
          rw [show handlerAt w fan r.rpc = some l from hlg]
          dsimp only
          omega
    | false =>
      unfold freeThread at hfr
      cases hn : w.threads r.target with
      | none => rw [hn] at hfr; cases hfr
      | some n =>
        rw [hn] at hfr
        refine ⟨by simp, ?_⟩
        have hn0 : n ≠ 0 := fun h0 => hE.threads r.target (by rw [hn, h0])
        have hcnt := of_decide_eq_false hfr
        obtain ⟨y, hy, hyp⟩ := List.countP_pos_iff.1 (Nat.lt_of_lt_of_le (Nat.pos_of_ne_zero hn0) (Nat.le_of_not_lt hcnt))
        obtain ⟨i', hi'⟩ := List.getElem?_of_mem hy
        simp only [Bool.and_eq_true, decide_eq_true_eq, Bool.not_eq_true', decide_eq_false_iff_not] at hyp
        exact ⟨i', y, hi', hyp.1.1, hyp.2⟩
  have hrunning : ∀ (c : Nat) r, s.base.calls[c]? = some r → r.stage = .running →
      ∃ (i : Nat) (y : Job), s.base.jobs[i]? = some y ∧ y.engine = r.target ∧ y.main.phase ≠ .done ∧ r.job < i := by
    intro c r hc hst
    obtain ⟨i, y, h1, h2⟩ := hA.running c r hc hst
    obtain ⟨r', h3, h4, h5, -⟩ := hP.served i y h1 c h2
    rw [hc] at h3
    cases h3
    refine ⟨i, y, h1, h5, ?_, h4⟩
    intro hd
    have h6 := ActionList.done_responded (hA.fine i y h1).main hd
    have h7 := (hA.stage i y h1 c r h2 hc).2.1 hst
    omega
  have hall : ∀ (m n i : Nat) (y : Job), layerAt w.cfg layer y.engine = m → s.base.jobs.length - i = n →
      s.base.jobs[i]? = some y → y.main.phase = .done := by
    intro m
    induction m using Nat.strongRecOn with
    | ind m ihm =>
      intro n
      induction n using Nat.strongRecOn with
      | ind n ihn =>
        intro i y hm hn hi
        apply Classical.byContradiction
        intro hd
        rcases job_goes hE.toRests hAf hi hd with h | ⟨a, q, hb⟩
        · exact hno h
        · unfold busy at hb
          rw [Bool.or_eq_true, List.any_eq_true, List.any_eq_true] at hb
          rcases hb with ⟨r, hrm, hb⟩ | ⟨z, hz, hb⟩
          · simp only [Bool.and_eq_true, decide_eq_true_eq, Bool.not_eq_true', decide_eq_false_iff_not] at hb
            obtain ⟨⟨⟨e1, e2⟩, e3⟩, e4⟩ := hb
            obtain ⟨c, hc⟩ := List.getElem?_of_mem hrm
            obtain ⟨k0, x, f, targets, h1, h2, h3, h4, h5⟩ := hP.made c r hc
            rw [e1, hi] at h1
            cases h1
            have hplace := entry_zero hE.sound (hA.fine i y hi).entry h2
            have h6 : toWork (fanAt w.cfg fan) x = .rpc r.rpc (fanAt w.cfg fan r.rpc) := by
              obtain ⟨i', rr, sv, g1, g2, -⟩ := rpc_work hE.sound hplace h3
              rw [work_rpc hE.sound hplace g1, g2]
              rfl
            obtain ⟨hle, hbound⟩ := layered_global hE.sound hE.clients hE.layered (fanAt w.cfg fan) y.engine y.list
              (may_run_job hE.sound hE.fans hP hA hi) _ (List.mem_map_of_mem (List.mem_of_getElem? hplace)) r.rpc _ h6
              r.target (call_server hE.sound hE.fans hP hA hc)
            cases hst : r.stage with
            | sent => exact (hnot c r hc).1 hst
            | answered => exact (hnot c r hc).2 hst
            | completed => exact e4 hst
            | queued =>
              obtain ⟨g1, i', z, g2, g3, g4⟩ := hqueue c r hc hst
              have hlt := hbound g1
              exact g4 (ihm (layerAt w.cfg layer z.engine) (by rw [g3]; omega) _ i' z rfl rfl g2)
            | running =>
              obtain ⟨i', z, g2, g3, g4, g5⟩ := hrunning c r hc hst
              have hlt' := (List.getElem?_eq_some_iff.1 g2).1
              by_cases hlt : layerAt w.cfg layer z.engine < m
              · exact g4 (ihm _ hlt _ i' z rfl rfl g2)
              · refine g4 (ihn (s.base.jobs.length - i') (by omega) i' z ?_ rfl g2)
                rw [g3] at hlt ⊢
                omega
          · simp only [Bool.and_eq_true, decide_eq_true_eq, Bool.not_eq_true', decide_eq_false_iff_not] at hb
            obtain ⟨e1, e2⟩ := hb
            obtain ⟨i', hi'⟩ := List.getElem?_of_mem hz
            obtain ⟨h1, k0, x, h2, h3, -⟩ := hP.nested i' z hi' i a q e1
            rw [hi] at h2
            cases h2
            have hlt := (List.getElem?_eq_some_iff.1 hi').1
            exact e2 (ihn (s.base.jobs.length - i') (by omega) i' z (by rw [← h3]; exact hm) rfl hi')
  refine ⟨?_, ?_⟩
  · intro y hy
    obtain ⟨i, hi⟩ := List.getElem?_of_mem hy
    exact hall _ _ i y rfl rfl hi
  · intro r hrm
    obtain ⟨c, hc⟩ := List.getElem?_of_mem hrm
    cases hst : r.stage with
    | sent => exact absurd hst (hnot c r hc).1
    | answered => exact absurd hst (hnot c r hc).2
    | completed => rfl
    | queued =>
      obtain ⟨-, i', z, g2, g3, g4⟩ := hqueue c r hc hst
      exact absurd (hall _ _ i' z rfl rfl g2) g4
    | running =>
      obtain ⟨i', z, g2, g3, g4, -⟩ := hrunning c r hc hst
      exact absurd (hall _ _ i' z rfl rfl g2) g4

/-- Cancelled, the test can be brought to its end. -/
theorem ends_from (hE : Ends e w fan level layer) {s0 : State} (hr : Reach w s0) (hcan : AllCancelled w.cfg s0)
    (hroom : RoomLeft w.cfg s0.base) : ∀ s, CLeads w s0 s → ∃ s', CLeads w s s' ∧ LoopsOver s'.base := by
  intro s
  induction hM : marks jobLeft (levelAt w level) (handlerAt w fan) s.base using less_wf.induction generalizing s with
  | h M ih =>
    intro h
    by_cases hno : GoesOn w fan level s
    · obtain ⟨s1, h1, h2⟩ := hno
      obtain ⟨s2, h3, h4⟩ := ih _ (by rw [← hM]; exact h2) s1 rfl (.step h h1)
      exact ⟨s2, (CLeads.step .refl h1).trans h3, h4⟩
    · refine ⟨s, .refl, over_or_goes hE ⟨h.reach hr, fun g i hi => leads_cancelled h (hcan g i hi),
        leads_fit hE.sound hE.test hE.fans hr hcan hroom h, ?_⟩ hno⟩
      intro j a k u x hj hu hx
      exact leads_room hE.sound hE.test hE.fans hr hcan hroom h hj hu hx

end Distbench.LoopsCancel
