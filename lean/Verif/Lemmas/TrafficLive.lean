import Verif.Lemmas.TrafficWork

/-! Lemmas for Props/Traffic.lean: what a list waits for. -/

namespace Distbench.Traffic
open Spec

variable {R : Nat → Prop}

theorem first_open {acts : List Act} (h : ¬ ∀ x ∈ acts, x.ended = true) :
    ∃ (a : Nat) (x : Act), acts[a]? = some x ∧ x.ended = false ∧
      ∀ (d : Nat), d < a → ∃ y, acts[d]? = some y ∧ y.ended = true := by
  induction acts with
  | nil => simp at h
  | cons x xs ih =>
    cases hx : x.ended with
    | false => exact ⟨0, x, rfl, hx, fun d hd => by omega⟩
    | true =>
      have : ¬ ∀ y ∈ xs, y.ended = true := by
        intro hall
        apply h
        intro y hy
        rcases List.mem_cons.1 hy with rfl | hy
        · exact hx
        · exact hall y hy
      obtain ⟨a, y, h1, h2, h3⟩ := ih this
      refine ⟨a + 1, y, by simpa using h1, h2, ?_⟩
      intro d hd
      cases d with
      | zero => exact ⟨x, rfl, hx⟩
      | succ d =>
        obtain ⟨z, h4, h5⟩ := h3 d (by omega)
        exact ⟨z, by simpa using h4, h5⟩

/-- An action that has iterations to begin, and none that has not ended, can begin one. -/
theorem can_iterate {cfg : Config} {s : State} {j a n : Nat} {job : Job} {x : Action}
    (hj : s.jobs[j]? = some job) (hx : (cfg.actions job.list)[a]? = some x)
    (ha : job.acts[a]? = some (.running (n + 1))) (hlt : openIterations s j a x.iters < x.parallel)
    (hserv : ∀ q fan, x.work = .rpc q fan → ∃ t, cfg.servers q t = true) :
    ∃ t, step cfg s (.iterate j a t) ≠ none := by
  cases hw : x.work with
  | rpc q fan =>
    obtain ⟨t, ht⟩ := hserv q fan hw
    refine ⟨List.replicate fan t, ?_⟩
    intro this
    rw [step, hj] at this
    dsimp only at this
    rw [hx, ha] at this
    dsimp only at this
    rw [if_pos hlt, hw] at this
    simp [ht] at this
  | list l =>
    refine ⟨[], ?_⟩
    intro this
    rw [step, hj] at this
    dsimp only at this
    rw [hx, ha] at this
    dsimp only at this
    rw [if_pos hlt, hw] at this
    simp at this
  | other =>
    refine ⟨[], ?_⟩
    intro this
    rw [step, hj] at this
    dsimp only at this
    rw [hx, ha] at this
    dsimp only at this
    rw [if_pos hlt, hw] at this
    simp at this

/-- The steps of a run of a list. -/
def Own (j : Nat) : Op → Prop
  | .start i _ => i = j
  | .skip i _ => i = j
  | .iterate i _ _ => i = j
  | .finish i _ => i = j
  | .endJob i => i = j
  | _ => False

/-- A list that is not over and has no step to take has an iteration that has not ended. -/
theorem live_open {cfg : Config} {s : State} (hsen : Sensible cfg) (hI : Inv cfg R s) {j : Nat} {job : Job}
    (hstuck : ∀ op, Own j op → step cfg s op = none) (hj : s.jobs[j]? = some job)
    (hlive : job.over = false) : ∃ (a : Nat) (x : Action), 0 < openIterations s j a x.iters := by
  have hnot : ¬ ∀ x ∈ job.acts, x.ended = true := by
    intro hall
    have := hstuck (.endJob j) rfl
    rw [step, hj] at this
    simp [hlive] at this
    obtain ⟨x, hx, hf⟩ := this
    rw [hall x hx] at hf
    cases hf
  obtain ⟨a, y, ha, hye, hbefore⟩ := first_open hnot
  have hlt : a < (cfg.actions job.list).length := by
    rw [← hI.len j job hj]
    exact (List.getElem?_eq_some_iff.1 ha).1
  have hx : (cfg.actions job.list)[a]? = some (cfg.actions job.list)[a] := List.getElem?_eq_getElem hlt
  generalize (cfg.actions job.list)[a] = x at hx
  obtain ⟨hdeps, hpar, hserv⟩ := hsen job.list a x hx
  refine ⟨a, x, ?_⟩
  cases y with
  | finished => cases hye
  | skipped => cases hye
  | waiting =>
    exfalso
    have hready : ready job x = true := by
      unfold ready
      rw [List.all_eq_true]
      intro d hd
      obtain ⟨z, h1, h2⟩ := hbefore d (hdeps d hd)
      rw [h1]
      exact h2
    have hst : startable cfg s j a = some (job, x) := by
      unfold startable
      rw [hj]
      dsimp only
      rw [hx]
      dsimp only
      rw [if_pos ⟨ha, hlive, hready⟩]
    cases hd : dropped job x with
    | false =>
      have := hstuck (.start j a) rfl
      rw [step, hst] at this
      simp [hd] at this
    | true =>
      have := hstuck (.skip j a) rfl
      rw [step, hst] at this
      simp [hd] at this
  | running n =>
    cases n with
    | zero =>
      have := hstuck (.finish j a) rfl
      rw [step, hj] at this
      dsimp only at this
      rw [hx, ha] at this
      simp at this
      omega
    | succ n =>
      apply Classical.byContradiction
      intro hzero
      obtain ⟨t, ht⟩ := can_iterate hj hx ha (by omega) hserv
      exact ht (hstuck (.iterate j a t) rfl)

/-- An iteration that has not ended waits for a list that it runs, or for an RPC. -/
theorem open_waits {s : State} {j a n : Nat} (h : 0 < openIterations s j a n)
    (hsent : ∀ (c : Nat) (r : Call), s.calls[c]? = some r → r.stage ≠ .sent ∧ r.stage ≠ .answered) :
    (∃ (j' a i : Nat) (k : Job), s.jobs[j']? = some k ∧ k.parent = .action j a i ∧ k.over = false) ∨
    ∃ (c : Nat) (r : Call), s.calls[c]? = some r ∧ r.job = j ∧ (r.stage = .queued ∨ r.stage = .running) := by
  rcases open_pos h with ⟨c, r, hc, hrj, hra, hst⟩ | ⟨j', i, k, hk, hp, ho⟩
  · right
    refine ⟨c, r, hc, hrj, ?_⟩
    have := hsent c r hc
    cases hs : r.stage with
    | sent => exact absurd hs this.1
    | queued => exact .inl rfl
    | running => exact .inr rfl
    | answered => exact absurd hs this.2
    | completed => exact absurd hs hst
  · exact .inl ⟨j', a, i, k, hk, hp, ho⟩

/-- An RPC that waits for a thread waits for a list that runs at its server. -/
theorem queued_waits {cfg : Config} {s : State} (hI : Inv cfg R s) (hz : ∀ e, cfg.threads e ≠ some 0)
    (hstuck : ∀ c, step cfg s (.dispatch c) = none) {c : Nat} {r : Call} (hc : s.calls[c]? = some r)
    (hq : r.stage = .queued) :
    cfg.threads r.target ≠ none ∧
      ∃ (j : Nat) (k : Job), s.jobs[j]? = some k ∧ k.engine = r.target ∧ k.over = false := by
  have hfree : freeThread cfg s r.target = false := by
    cases hf : freeThread cfg s r.target with
    | false => rfl
    | true =>
      exfalso
      have := hstuck c
      rw [step, hc] at this
      dsimp only at this
      cases hh : cfg.handler r.rpc with
      | none => exact (hI.unhandled c r hc hh).1 hq
      | some l =>
        rw [hh] at this
        dsimp only at this
        rw [if_pos ⟨hq, hf⟩] at this
        cases this
  unfold freeThread at hfree
  cases ht : cfg.threads r.target with
  | none => rw [ht] at hfree; cases hfree
  | some n =>
    rw [ht] at hfree
    simp at hfree
    refine ⟨by simp, ?_⟩
    have hn : n ≠ 0 := by
      rintro rfl
      exact hz _ ht
    have hpos : 0 < s.jobs.countP fun k => k.engine = r.target && k.inPool && !k.over := by omega
    rw [List.countP_pos_iff] at hpos
    obtain ⟨k, hk, hb⟩ := hpos
    obtain ⟨j, hj⟩ := List.getElem?_of_mem hk
    simp at hb
    exact ⟨j, k, hj, hb.1.1, hb.2⟩

/-- An RPC that is being handled waits for the list that handles it, which began after the one that
made the RPC. -/
theorem running_waits {cfg : Config} {s : State} (hI : Inv cfg R s) {c : Nat} {r : Call}
    (hc : s.calls[c]? = some r) (hq : r.stage = .running) :
    ∃ (j : Nat) (k : Job), s.jobs[j]? = some k ∧ k.engine = r.target ∧ k.over = false ∧ r.job < j := by
  cases hh : cfg.handler r.rpc with
  | none => exact absurd hq (hI.unhandled c r hc hh).2
  | some l =>
    obtain ⟨j, k, hj, hp⟩ := hI.handled c r l hc hh (by simp [hq]) (by simp [hq]) (.inl hq)
    obtain ⟨r', h1, h2, h3, h4, _, _, h7⟩ := hI.parent j k c hj hp
    rw [hc] at h1
    cases h1
    exact ⟨j, k, hj, h3, (h7.1 hq).1, h4⟩

/-- What each list waits for leads to one that does not have to wait. -/
theorem none_live {cfg : Config} {s : State} {layer : Nat → Nat} (hlay : Layered cfg layer)
    (hI : Inv cfg R s)
    (hwait : ∀ (j : Nat) (job : Job), s.jobs[j]? = some job → job.over = false →
      (∃ (j' a i : Nat) (k : Job), s.jobs[j']? = some k ∧ k.parent = .action j a i ∧ k.over = false) ∨
      ∃ (c : Nat) (r : Call), s.calls[c]? = some r ∧ r.job = j ∧ (r.stage = .queued ∨ r.stage = .running))
    (hqueue : ∀ (c : Nat) (r : Call), s.calls[c]? = some r → r.stage = .queued →
      cfg.threads r.target ≠ none ∧
        ∃ (j : Nat) (k : Job), s.jobs[j]? = some k ∧ k.engine = r.target ∧ k.over = false) :
    ∀ (m n j : Nat) (job : Job), layer job.engine = m → s.jobs.length - j = n → s.jobs[j]? = some job →
      job.over = true := by
  intro m
  induction m using Nat.strongRecOn with
  | ind m ihm =>
    intro n
    induction n using Nat.strongRecOn with
    | ind n ihn =>
      intro j job hm hn hj
      apply Classical.byContradiction
      intro ho
      have hlive : job.over = false := by simpa using ho
      rcases hwait j job hj hlive with ⟨j', a, i, k, hk, hp, hko⟩ | ⟨c, r, hc, hrj, hst⟩
      · obtain ⟨h0, k', x, y, h1, h2, h3, _, h5, _⟩ := hI.nested j' k j a i hk hp
        rw [hj] at h1
        cases h1
        have hlt := (List.getElem?_eq_some_iff.1 hk).1
        have := ihn (s.jobs.length - j') (by omega) j' k (by rw [h5, hm]) rfl hk
        rw [hko] at this
        cases this
      · obtain ⟨k', x, fan, y, h1, h2, h3, _, h5, _⟩ := hI.made c r hc
        rw [hrj, hj] at h1
        cases h1
        obtain ⟨hle, hbound⟩ :=
          hlay job.engine job.list (hI.may j job hj) x (List.mem_of_getElem? h2) r.rpc fan h3 r.target h5
        rcases hst with hst | hst
        · obtain ⟨g1, j', k, g2, g3, g4⟩ := hqueue c r hc hst
          have hlt := hbound g1
          have := ihm (layer k.engine) (by rw [g3]; omega) _ j' k rfl rfl g2
          rw [g4] at this
          cases this
        · obtain ⟨j', k, g2, g3, g4, g5⟩ := running_waits hI hc hst
          have hlt' := (List.getElem?_eq_some_iff.1 g2).1
          have : k.over = true := by
            by_cases hlt : layer k.engine < m
            · exact ihm (layer k.engine) hlt _ j' k rfl rfl g2
            · refine ihn (s.jobs.length - j') (by omega) j' k ?_ rfl g2
              rw [g3] at hlt ⊢
              omega
          rw [g4] at this
          cases this

theorem all_over {cfg : Config} {s : State} {layer : Nat → Nat} (hlay : Layered cfg layer)
    (hI : Inv cfg R s)
    (hsent : ∀ (c : Nat) (r : Call), s.calls[c]? = some r → r.stage ≠ .sent ∧ r.stage ≠ .answered)
    (hopen : ∀ (j : Nat) (job : Job), s.jobs[j]? = some job → job.over = false →
      ∃ (a : Nat) (x : Action), 0 < openIterations s j a x.iters)
    (hqueue : ∀ (c : Nat) (r : Call), s.calls[c]? = some r → r.stage = .queued →
      cfg.threads r.target ≠ none ∧
        ∃ (j : Nat) (k : Job), s.jobs[j]? = some k ∧ k.engine = r.target ∧ k.over = false) :
    TrafficOver s := by
  have hall := none_live hlay hI
    (fun j job hj ho => by obtain ⟨a, x, h⟩ := hopen j job hj ho; exact open_waits h hsent) hqueue
  refine ⟨?_, ?_⟩
  · intro k hk
    obtain ⟨j, hj⟩ := List.getElem?_of_mem hk
    exact hall _ _ j k rfl rfl hj
  · intro r hr
    obtain ⟨c, hc⟩ := List.getElem?_of_mem hr
    have := hsent c r hc
    cases hs : r.stage with
    | sent => exact absurd hs this.1
    | queued =>
      obtain ⟨_, j', k, g2, g3, g4⟩ := hqueue c r hc hs
      have := hall _ _ j' k rfl rfl g2
      rw [g4] at this
      cases this
    | running =>
      obtain ⟨j', k, g2, g3, g4, g5⟩ := running_waits hI hc hs
      have := hall _ _ j' k rfl rfl g2
      rw [g4] at this
      cases this
    | answered => exact absurd hs this.2
    | completed => rfl

theorem deliver_possible {cfg : Config} {s : State} {c : Nat} {r : Call} (hc : s.calls[c]? = some r)
    (hs : r.stage = .sent) : step cfg s (.deliver c) ≠ none := by
  intro this
  rw [step, hc] at this
  dsimp only at this
  rw [if_pos hs] at this
  split at this <;> cases this

theorem complete_possible {cfg : Config} {s : State} {c : Nat} {r : Call} (hc : s.calls[c]? = some r)
    (hs : r.stage = .answered) : step cfg s (.complete c) ≠ none := by
  intro this
  rw [step, hc] at this
  dsimp only at this
  rw [if_pos hs] at this
  cases this

theorem stuck_over {cfg : Config} {s : State} {layer : Nat → Nat} (hsen : Sensible cfg)
    (hlay : Layered cfg layer) (hz : ∀ e, cfg.threads e ≠ some 0)
    (hI : Inv cfg R s) (hstuck : TrafficStuck cfg s) : TrafficOver s :=
  all_over hlay hI
    (fun c _ hc => ⟨fun h => deliver_possible hc h (hstuck _), fun h => complete_possible hc h (hstuck _)⟩)
    (fun _ _ hj ho => live_open hsen hI (fun op _ => hstuck op) hj ho)
    (fun _ _ hc hq => queued_waits hI hz (fun _ => hstuck _) hc hq)

/-! ### Responses -/

/-- Without early responses only the end of the single action of a list counts as its end. -/
def LateInv (cfg : Config) (s : State) : Prop :=
  ∀ (j : Nat) (k : Job) (a : Nat), s.jobs[j]? = some k → k.early = some a → (cfg.actions k.list).length = 1

theorem late_set {cfg : Config} {s : State} {j : Nat} {job k' : Job} (h : LateInv cfg s)
    (hl : k'.list = job.list) (he : ∀ a, k'.early = some a → (cfg.actions job.list).length = 1)
    (calls : List Call) : LateInv cfg { jobs := s.jobs.set j k', calls := calls } := by
  intro i k a hk hka
  dsimp only at hk
  rw [List.getElem?_set] at hk
  split at hk
  · next hij =>
    split at hk
    · cases hk
      rw [hl]
      exact he a hka
    · cases hk
  · exact h i k a hk hka

theorem late_step {cfg : Config} {s s' : State} {op : Op} (hn : NoEarlyResponse cfg) (hl : LateInv cfg s)
    (hs : step cfg s op = some s') : LateInv cfg s' := by
  have hdes : ∀ {s : State} {j : Nat} {job : Job} {x : Action} {a : Nat}, LateInv cfg s →
      s.jobs[j]? = some job → (cfg.actions job.list)[a]? = some x →
      ∀ b, designate cfg job x a = some b → (cfg.actions job.list).length = 1 := by
    intro s j job x a hl hj hx b hb
    unfold designate at hb
    split at hb
    · next hg =>
      rcases hg.2 with hg | hg
      · exact hg
      · rw [hn job.list x (List.mem_of_getElem? hx)] at hg
        cases hg
    · exact hl j job b hj hb
  have happ : ∀ {jobs : List Job} {calls calls' : List Call} {nj : Job},
      LateInv cfg { jobs := jobs, calls := calls } → nj.early = none →
      LateInv cfg { jobs := jobs ++ [nj], calls := calls' } := by
    intro jobs calls calls' nj hl hne i k a hk hka
    rcases jobs_append hk with hk | ⟨_, rfl⟩
    · exact hl i k a hk hka
    · rw [hne] at hka
      cases hka
  cases op with
  | start j a =>
    obtain ⟨job, x, hj, hx, hw, ho, hready, hd, rfl⟩ := step_start hs
    exact late_set hl (by rfl) (hdes hl hj hx) _
  | skip j a =>
    obtain ⟨job, x, hj, hx, hw, ho, hready, hd, rfl⟩ := step_skip hs
    exact late_set hl (by rfl) (hdes hl hj hx) _
  | iterate j a t =>
    obtain ⟨job, x, left, hj, hx, hw, hcase⟩ := step_iterate hs
    have hb : LateInv cfg { s with jobs := s.jobs.set j { job with acts := job.acts.set a (.running left) } } :=
      late_set (job := job) hl (by rfl) (by intro b hb; exact hl j job b hj hb) _
    rcases hcase with ⟨q, hq, ht, rfl⟩ | ⟨l, hl, rfl⟩ | ⟨hl, rfl⟩
    · exact hb
    · exact happ hb rfl
    · exact hb
  | finish j a =>
    obtain ⟨job, x, hj, hx, hw, hopen, rfl⟩ := step_finish hs
    exact late_set (job := job) hl (by rfl) (by intro b hb; exact hl j job b hj hb) _
  | deliver c =>
    obtain ⟨q, hr, hst, rfl⟩ := step_deliver hs
    exact hl
  | dispatch c =>
    obtain ⟨q, l, hr, hl', hst, hfree, rfl⟩ := step_dispatch hs
    exact happ (calls := s.calls) hl rfl
  | endJob j =>
    obtain ⟨job, hj, ho, hall, rfl⟩ := step_endJob hs
    exact late_set (job := job) hl (by rfl) (by intro b hb; exact hl j job b hj hb) _
  | complete c =>
    obtain ⟨q, hr, hst, rfl⟩ := step_complete hs
    exact hl

theorem late_initial (cfg : Config) : LateInv cfg (initial cfg) := by
  intro j k a hk hka
  have := List.mem_of_getElem? hk
  obtain ⟨r, _, rfl⟩ := List.mem_map.1 this
  cases hka

theorem late_run {cfg : Config} {ops : List Op} {s : State} (hn : NoEarlyResponse cfg)
    (h : TrafficRun cfg ops s) : LateInv cfg s :=
  run_induction (P := fun _ s => LateInv cfg s) (late_initial cfg) (fun _ _ _ _ _ hl hs => late_step hn hl hs) h

/-- A list that has sent its response has done all its actions. -/
theorem answered_ended {cfg : Config} {s : State} (hI : Inv cfg R s) (hl : LateInv cfg s) {j : Nat} {k : Job}
    (hj : s.jobs[j]? = some k) (h : ¬ Unanswered k) : ∀ (a : Nat) (x : Act), k.acts[a]? = some x → x.ended = true := by
  by_cases ho : k.over = true
  · exact hI.over j k hj ho
  · have ho : k.over = false := by simpa using ho
    have : ∃ (a : Nat) (x : Act), k.early = some a ∧ k.acts[a]? = some x ∧ x.ended = true := by
      apply Classical.byContradiction
      intro hne
      apply h
      refine ⟨ho, ?_⟩
      intro a x h1 h2
      cases hx : x.ended with
      | false => rfl
      | true => exact absurd ⟨a, x, h1, h2, hx⟩ hne
    obtain ⟨a, x, h1, h2, h3⟩ := this
    have hlen := hl j k a hj h1
    rw [← hI.len j k hj] at hlen
    intro b y hy
    have h4 := (List.getElem?_eq_some_iff.1 h2).1
    have h5 := (List.getElem?_eq_some_iff.1 hy).1
    have : a = b := by omega
    subst this
    rw [h2] at hy
    cases hy
    exact h3

/-- What a list whose actions have all ended began has ended. -/
theorem ended_calls {cfg : Config} {s : State} (hI : Inv cfg R s) {c : Nat} {r : Call} {k : Job}
    (hc : s.calls[c]? = some r) (hj : s.jobs[r.job]? = some k)
    (h : ∀ (a : Nat) (x : Act), k.acts[a]? = some x → x.ended = true) : r.stage = .completed := by
  obtain ⟨k', x, fan, y, h1, _, _, _, _, h6, h7⟩ := hI.made c r hc
  rw [hj] at h1
  cases h1
  rcases h7 with ⟨_, h7⟩ | ⟨n, rfl⟩
  · exact h7
  · have := h _ _ h6
    cases this

theorem ended_nested {cfg : Config} {s : State} (hI : Inv cfg R s) {j j' a i : Nat} {k k' : Job}
    (hj : s.jobs[j]? = some k) (hp : k.parent = .action j' a i) (hj' : s.jobs[j']? = some k')
    (h : ∀ (a : Nat) (x : Act), k'.acts[a]? = some x → x.ended = true) : k.over = true := by
  obtain ⟨_, k'', x, y, h1, _, _, _, _, h6, h7⟩ := hI.nested j k j' a i hj hp
  rw [hj'] at h1
  cases h1
  rcases h7 with ⟨_, h7⟩ | ⟨n, rfl⟩
  · exact h7
  · have := h _ _ h6
    cases this

theorem call_ended {cfg : Config} {s : State} (hI : Inv cfg R s) (hl : LateInv cfg s) {j c : Nat} {k : Job}
    {r : Call} (hj : s.jobs[j]? = some k) (hp : k.parent = .call c) (hc : s.calls[c]? = some r)
    (hst : r.stage ≠ .running) : ∀ (a : Nat) (x : Act), k.acts[a]? = some x → x.ended = true := by
  obtain ⟨r', h1, _, _, _, _, _, h7⟩ := hI.parent j k c hj hp
  rw [hc] at h1
  cases h1
  exact answered_ended hI hl hj (fun hu => hst (h7.2 hu))

/-- What was done for the sake of an RPC that was answered has ended. -/
theorem below_ended {cfg : Config} {s : State} (hI : Inv cfg R s) (hl : LateInv cfg s) {c : Nat} {r : Call}
    (hc : s.calls[c]? = some r) (hst : r.stage ≠ .running) :
    (∀ j, JobBelow s c j → ∀ (k : Job), s.jobs[j]? = some k →
      ∀ (a : Nat) (x : Act), k.acts[a]? = some x → x.ended = true) ∧
    ∀ c', CallBelow s c c' → ∀ (r' : Call), s.calls[c']? = some r' → r'.stage = .completed := by
  have hJ : ∀ j, (hb : JobBelow s c j) → ∀ (k : Job), s.jobs[j]? = some k →
      ∀ (a : Nat) (x : Act), k.acts[a]? = some x → x.ended = true := by
    intro j hb
    refine JobBelow.rec (s := s) (c := c)
      (motive_1 := fun j _ => ∀ (k : Job), s.jobs[j]? = some k →
        ∀ (a : Nat) (x : Act), k.acts[a]? = some x → x.ended = true)
      (motive_2 := fun c' _ => ∀ (r' : Call), s.calls[c']? = some r' → r'.stage = .completed)
      ?_ ?_ ?_ ?_ hb
    · intro j k hj hp k' hk'
      rw [hj] at hk'
      cases hk'
      exact call_ended hI hl hj hp hc hst
    · intro j c' k hj hp _ ih k' hk'
      rw [hj] at hk'
      cases hk'
      obtain ⟨r', h1, _⟩ := hI.parent j k c' hj hp
      exact call_ended hI hl hj hp h1 (by rw [ih r' h1]; simp)
    · intro j j' a i k hj hp _ ih k' hk'
      rw [hj] at hk'
      cases hk'
      obtain ⟨_, k'', x, y, h1, _⟩ := hI.nested j k j' a i hj hp
      exact hI.over j k hj (ended_nested hI hj hp h1 (ih k'' h1))
    · intro c' r' hc' _ ih r'' hr''
      rw [hc'] at hr''
      cases hr''
      obtain ⟨k', x, fan, y, h1, _⟩ := hI.made c' r' hc'
      exact ended_calls hI hc' h1 (ih k' h1)
  refine ⟨hJ, ?_⟩
  intro c' hb r' hr'
  cases hb with
  | made h1 h2 =>
    rw [h1] at hr'
    cases hr'
    obtain ⟨k', x, fan, y, h3, _⟩ := hI.made c' r' h1
    exact ended_calls hI h1 h3 (hJ _ h2 k' h3)

/-- When all the lists that the traffic began with have ended, everything has. -/
theorem all_ended {cfg : Config} {s : State} (hI : Inv cfg R s) (hl : LateInv cfg s)
    (hroot : ∀ k ∈ s.jobs, k.parent = .root → k.over = true) :
    ∀ (j : Nat) (k : Job), s.jobs[j]? = some k → ∀ (a : Nat) (x : Act), k.acts[a]? = some x → x.ended = true := by
  intro j
  induction j using Nat.strongRecOn with
  | ind j ih =>
    intro k hj
    cases hp : k.parent with
    | root => exact hI.over j k hj (hroot k (List.mem_of_getElem? hj) hp)
    | call c =>
      obtain ⟨r, h1, _, _, h4, _⟩ := hI.parent j k c hj hp
      obtain ⟨k', x, fan, y, h5, _⟩ := hI.made c r h1
      exact call_ended hI hl hj hp h1 (by rw [ended_calls hI h1 h5 (ih r.job h4 k' h5)]; simp)
    | action j' a i =>
      obtain ⟨h0, k', x, y, h1, _⟩ := hI.nested j k j' a i hj hp
      exact hI.over j k hj (ended_nested hI hj hp h1 (ih j' h0 k' h1))

end Distbench.Traffic
