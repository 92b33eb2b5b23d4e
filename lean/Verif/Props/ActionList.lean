import Verif.Lemmas.ActionListExec
import Verif.Props.Tables

/-! Properties of the execution of action lists: C29, C31, C32 and the properties about aborts and
response sizes.  Progress (C30) is in `Props/Progress.lean`. -/

namespace Distbench
open ActionList Tables Spec

/-- What holds of every event of a run and the events before it. -/
private theorem ordered_of {c : Ctx} (hc : Sane c) {s : State} (hr : Reachable c s) :
    Along (Ordered c) s.log := by
  have h := inv_reachable hc hr
  unfold ActionList.Inv at h
  split at h
  · obtain ⟨s0, hp, h0, hs, hacts, hlog, -⟩ := h
    have hst := startedIn_iff h0
    rw [hlog]
    have hall : ∀ j, StartedIn j s0.log → .finished j ∈ s0.log := by
      intro j hj
      exact (h0.log_fin j).2 (h0.fin_closed j ((hs.exit hp).1 j ((hst j).1 hj)))
    have hresp : s0.sentEarly = true → ∃ e ∈ s0.log, IsResponse e := by
      intro hse
      obtain ⟨i, hi⟩ := h0.sent_sender hse
      have hf := (hs.exit hp).1 i (h0.sender_started i hi).1
      obtain ⟨o, ho⟩ := (h0.log_resp i).2 ⟨hi, h0.closed_called i (h0.fin_closed i hf)⟩
      exact ⟨_, ho, _, _, rfl⟩
    unfold respondAndFree
    simp only []
    cases hse : s0.sentEarly with
    | true =>
      exact ⟨⟨h0.log_freed, hresp hse, hall⟩, h0.ordered⟩
    | false =>
      have hnos : ∀ j, (s0.acts j).sender ≠ true := by
        intro j hj
        have := (h0.sender_started j hj).2.1
        rw [hse] at this
        simp at this
      refine ⟨⟨?_, ⟨_, List.mem_cons_self, _, _, rfl⟩, ?_⟩, ⟨?_, h0.log_freed, h0.lo_eq, ?_, hall⟩,
        h0.ordered⟩
      · simpa using h0.log_freed
      · intro j hj
        obtain ⟨e, he, hje⟩ := hj
        refine List.mem_cons_of_mem _ (hall j ⟨e, ?_, hje⟩)
        rcases List.mem_cons.1 he with rfl | he
        · rcases hje with h | ⟨t, h⟩ <;> simp at h
        · exact he
      · rintro e he ⟨b, o, rfl⟩
        cases b with
        | none => exact h0.log_none o he
        | some j => exact hnos j ((h0.log_resp j).1 ⟨o, he⟩).1
      · intro j hj hjs
        have := h0.eligible_sent j ((hst j).1 hjs) hj
        rw [hse] at this
        simp at this
  · exact h.1.ordered

/-- C29.  In every execution of an accepted action list, an action is started (or skipped) at most
once, and only after every action it depends on, each of which stands before it, has finished. -/
theorem C29_order (cfg : Tables.Config) (svc : Str) (c : Ctx) (hl : Loaded cfg svc c) (s : State)
    (hr : Reachable c s) (later earlier : List Event) (e : Event)
    (hlog : s.log = later ++ e :: earlier) (i : Nat) (he : IsStart i e) :
    ¬ StartedIn i earlier ∧ ∀ d ∈ c.deps i, d < i ∧ .finished d ∈ earlier := by
  have h := (ordered_of (loaded_sane hl) hr).get hlog
  have hb := loaded_backwards hl i
  rcases he with rfl | ⟨t, rfl⟩
  · exact ⟨h.2.1, fun d hd => ⟨hb d hd, h.1 d hd⟩⟩
  · exact ⟨h.2.1, fun d hd => ⟨hb d hd, h.1 d hd⟩⟩

/-- C29, finishing.  An action finishes at most once, and only after it was started. -/
theorem C29_finish (cfg : Tables.Config) (svc : Str) (c : Ctx) (hl : Loaded cfg svc c) (s : State)
    (hr : Reachable c s) (later earlier : List Event) (i : Nat)
    (hlog : s.log = later ++ .finished i :: earlier) :
    .finished i ∉ earlier ∧ StartedIn i earlier :=
  (ordered_of (loaded_sane hl) hr).get hlog

/-- C29, delays.  An action with a delay distribution runs only once the drawn delay has passed
since a moment at which everything it depends on had finished; the delay is drawn once. -/
theorem C29_delay (cfg : Tables.Config) (svc : Str) (c : Ctx) (hl : Loaded cfg svc c) (s : State)
    (hr : Reachable c s) (later earlier : List Event) (i : Nat) (t : Int)
    (hlog : s.log = later ++ .initiated i t :: earlier) (a : ActionEntry)
    (ha : c.entry.listActions[i]? = some a) (name : Str)
    (hname : a.proto.delayDistributionName = some name) :
    ∃ mid before t0 delay, earlier = mid ++ .armed i t0 delay :: before ∧ t0 + delay ≤ t ∧
      (∀ d ∈ c.deps i, .finished d ∈ before) ∧ ∀ t1 d1, .armed i t1 d1 ∉ before := by
  have ho := ordered_of (loaded_sane hl) hr
  obtain ⟨h1, h2, h3, h4⟩ := ho.get hlog
  obtain ⟨en, tb, k, g1, g2, -⟩ := hl
  obtain ⟨-, -, g3, -⟩ := loaded_entry g1 g2 ha
  obtain ⟨t0, delay, hm, hle⟩ := h4 ⟨a, ha, g3.2 ⟨name, hname⟩⟩
  obtain ⟨mid, before, he⟩ := List.mem_iff_append.1 hm
  have h5 := ho.get (later := later ++ .initiated i t :: mid) (e := .armed i t0 delay)
    (earlier := before) (by rw [hlog, he]; simp)
  exact ⟨mid, before, t0, delay, he, hle, h5.1, h5.2.2⟩

/-! ### C31 -/

/-- C31.  When the list is done the response has been sent exactly once and then the RPC state has
been freed, exactly once and last of all, with every started action finished before. -/
theorem C31_once (cfg : Tables.Config) (svc : Str) (c : Ctx) (hl : Loaded cfg svc c) (s : State)
    (hr : Reachable c s) (hd : s.phase = .done) :
    ∃ mid before by_ o, s.log = .freed :: (mid ++ .response by_ o :: before) ∧
      (∀ e ∈ mid ++ before, ¬ IsResponse e ∧ e ≠ .freed) ∧
      ∀ i, StartedIn i s.log → .finished i ∈ s.log := by
  have ho := ordered_of (loaded_sane hl) hr
  have h := inv_reachable (loaded_sane hl) hr
  rw [ActionList.Inv, if_pos hd] at h
  obtain ⟨s0, -, -, -, -, hlog, -⟩ := h
  obtain ⟨rest, hrest⟩ : ∃ rest, s.log = .freed :: rest := ⟨_, hlog⟩
  obtain ⟨h1, ⟨e, he, b, o, rfl⟩, h3⟩ := ho.get (later := []) (e := .freed) (earlier := rest) hrest
  obtain ⟨mid, before, hm⟩ := List.mem_iff_append.1 he
  refine ⟨mid, before, b, o, by rw [hrest, hm], ?_, ?_⟩
  · have hfr : ∀ e ∈ mid ++ before, e ≠ .freed := by
      rintro e he rfl
      apply h1
      rw [hm]
      rcases List.mem_append.1 he with he | he
      · exact List.mem_append_left _ he
      · exact List.mem_append_right _ (List.mem_cons_of_mem _ he)
    intro e he
    refine ⟨?_, hfr e he⟩
    rintro ⟨b', o', rfl⟩
    rcases List.mem_append.1 he with he | he
    · obtain ⟨m1, m2, hm2⟩ := List.mem_iff_append.1 he
      obtain ⟨k1, -⟩ := ho.get (later := .freed :: m1) (e := .response b' o')
        (earlier := m2 ++ .response b o :: before) (by rw [hrest, hm, hm2]; simp)
      exact k1 (.response b o) (by simp) ⟨_, _, rfl⟩
    · obtain ⟨k1, -⟩ := ho.get (later := .freed :: mid) (e := .response b o)
        (earlier := before) (by rw [hrest, hm]; simp)
      exact k1 _ he ⟨_, _, rfl⟩
  · intro i hi
    rw [hrest] at hi ⊢
    refine List.mem_cons_of_mem _ (h3 i ?_)
    obtain ⟨e, he, hie⟩ := hi
    rcases List.mem_cons.1 he with rfl | he
    · rcases hie with h | ⟨t, h⟩ <;> simp at h
    · exact ⟨e, he, hie⟩

/-- C31, at all times.  The response is never sent twice, nor after the state was freed; the state
is never freed twice, nor before the response was sent and all started actions have finished. -/
theorem C31_always (cfg : Tables.Config) (svc : Str) (c : Ctx) (hl : Loaded cfg svc c) (s : State)
    (hr : Reachable c s) (later earlier : List Event) (e : Event)
    (hlog : s.log = later ++ e :: earlier) :
    (IsResponse e → (∀ e' ∈ earlier, ¬ IsResponse e') ∧ .freed ∉ earlier) ∧
    (e = .freed → .freed ∉ earlier ∧ (∃ e' ∈ earlier, IsResponse e') ∧
      ∀ i, StartedIn i earlier → .finished i ∈ earlier) := by
  have h := (ordered_of (loaded_sane hl) hr).get hlog
  constructor
  · rintro ⟨b, o, rfl⟩
    exact ⟨h.1, h.2.1⟩
  · rintro rfl
    exact h

/-- C31, when.  The response is sent when the first started action that is marked
`send_response_when_done` (or is the only action) completes, just before it counts as finished; if
no such action was started, it is sent at the end, after all started actions have finished. -/
theorem C31_when (cfg : Tables.Config) (svc : Str) (c : Ctx) (hl : Loaded cfg svc c) (s : State)
    (hr : Reachable c s) (later earlier : List Event) (by_ : Option Nat) (o : Int)
    (hlog : s.log = later ++ .response by_ o :: earlier) :
    (∀ i, by_ = some i → MayRespond c i ∧ .finished i ∉ earlier ∧
      ∃ mid st before, earlier = mid ++ st :: before ∧ IsStart i st ∧
        ∀ j, MayRespond c j → ¬ StartedIn j before) ∧
    (by_ = none → (∀ j, MayRespond c j → ¬ StartedIn j earlier) ∧
      ∀ j, StartedIn j earlier → .finished j ∈ earlier) := by
  have h := (ordered_of (loaded_sane hl) hr).get hlog
  constructor
  · rintro i rfl
    obtain ⟨-, -, h1, h2, -, h3⟩ := h
    exact ⟨h1, h2, h3⟩
  · rintro rfl
    exact ⟨h.2.2.2.1, h.2.2.2.2⟩

/-- C78.  The response is given the size distribution named by an action that does nothing but
name one: the action whose completion sends the response, if it ran and is of that kind, and
otherwise the last to have finished of those that ran; the RPC's own size if there is none. -/
theorem C78_override (cfg : Tables.Config) (svc : Str) (c : Ctx) (hl : Loaded cfg svc c) (s : State)
    (hr : Reachable c s) (later earlier : List Event) (by_ : Option Nat) (o : Int)
    (hlog : s.log = later ++ .response by_ o :: earlier) :
    o = match by_ with
      | some i => if overrideOf c i ≠ -1 ∧ .skipped i ∉ earlier then overrideOf c i
          else lastOverride c earlier
      | none => lastOverride c earlier := by
  have h := (ordered_of (loaded_sane hl) hr).get hlog
  cases by_ with
  | none => exact h.2.2.1
  | some i => exact h.2.2.2.2.1

/-! ### C32 -/

/-- The names in `drawnPredicates` are those that hold. -/
theorem C32_draws (probabilities : List (Str × Rat)) (draw : Str → Rat) (p : Str) :
    p ∈ drawnPredicates probabilities draw ↔ Holds probabilities draw p := by
  unfold drawnPredicates Holds
  rw [List.mem_map]
  constructor
  · rintro ⟨⟨n, q⟩, hn, he⟩
    simp only at he
    by_cases hd : draw n ≤ q
    · rw [if_pos hd] at he
      subst he
      exact .inl ⟨q, hn, hd⟩
    · rw [if_neg hd] at he
      exact .inr ⟨n, q, he.symm, hn, hd⟩
  · rintro (⟨q, h1, h2⟩ | ⟨n, q, h1, h2, h3⟩)
    · exact ⟨(p, q), h1, by simp only; rw [if_pos h2]⟩
    · exact ⟨(n, q), h2, by simp only; rw [if_neg h3, h1]⟩

/-- C32.  Every action that is skipped is to be skipped: one of its predicates does not hold, or so
it is for an action it depends on.  No action that runs is to be skipped. -/
theorem C32_predicates (cfg : Tables.Config) (svc : Str) (c : Ctx) (hl : Loaded cfg svc c)
    (draw : Str → Rat) (hp : c.predicates = drawnPredicates c.entry.proto.predicateProbabilities draw)
    (s : State) (hr : Reachable c s) (i : Nat) :
    (.skipped i ∈ s.log → ToSkip c (Holds c.entry.proto.predicateProbabilities draw) i) ∧
    (∀ t, .initiated i t ∈ s.log →
      ¬ ToSkip c (Holds c.entry.proto.predicateProbabilities draw) i) := by
  have ho := ordered_of (loaded_sane hl) hr
  have hb := loaded_backwards hl
  have hmem : ∀ p, p ∈ c.predicates ↔ Holds c.entry.proto.predicateProbabilities draw p := by
    intro p; rw [hp]; exact C32_draws _ _ _
  induction i using Nat.strongRecOn with
  | _ i ih =>
  constructor
  · intro hm
    obtain ⟨l1, l2, he⟩ := List.mem_iff_append.1 hm
    obtain ⟨h1, -, h3⟩ := ho.get he
    rcases h3 with ⟨d, hd, hds⟩ | ⟨a, ha, p, hp1, hp2⟩
    · refine .dependency hd ((ih d (hb i d hd)).1 ?_)
      rw [he]; simp [hds]
    · exact .predicate ha hp1 (by rw [← hmem]; exact hp2)
  · intro t hm hs
    obtain ⟨l1, l2, he⟩ := List.mem_iff_append.1 hm
    obtain ⟨h1, -, h3, -⟩ := ho.get he
    cases hs with
    | predicate ha hp1 hp2 =>
      exact h3 (.inr ⟨_, ha, _, hp1, by rw [hmem]; exact hp2⟩)
    | @dependency _ d hd hds =>
      obtain ⟨m1, m2, hm2⟩ := List.mem_iff_append.1 (h1 _ hd)
      obtain ⟨-, e, hee, hse⟩ := ho.get (later := l1 ++ .initiated i t :: m1) (e := .finished d)
        (earlier := m2) (by rw [he, hm2]; simp)
      rcases hse with rfl | ⟨t', rfl⟩
      · exact h3 (.inl ⟨d, hd, by rw [hm2]; simp [hee]⟩)
      · exact (ih d (hb i d hd)).2 t' (by rw [he, hm2]; simp [hee]) hds

/-- C32, completeness.  When the list is done without having been cancelled, every action has
either run or been skipped, never both. -/
theorem C32_all (cfg : Tables.Config) (svc : Str) (c : Ctx) (hl : Loaded cfg svc c) (s : State)
    (hr : Reachable c s) (hd : s.phase = .done) (hcn : s.canceled = false) (i : Nat) (hi : i < c.size) :
    .finished i ∈ s.log ∧ (.skipped i ∈ s.log ↔ ¬ ∃ t, .initiated i t ∈ s.log) := by
  have h := inv_reachable (loaded_sane hl) hr
  rw [ActionList.Inv, if_pos hd] at h
  obtain ⟨s0, hp, h0, hs, hacts, hlog, hc0⟩ := h
  have hc : s0.canceled = false := by
    cases hx : s0.canceled with
    | false => rfl
    | true => rw [hc0 hx] at hcn; simp at hcn
  have hfin : (s0.acts i).finished = true := by
    rcases (hs.exit hp).2 with h | h
    · rw [hc] at h; simp at h
    · exact h i hi
  have hcl := h0.fin_closed i hfin
  have hmem : ∀ e, (∀ b o, e ≠ .response b o) → e ≠ .freed → (e ∈ s.log ↔ e ∈ s0.log) := by
    intro e h1 h2
    rw [hlog]
    unfold respondAndFree
    simp only []
    split <;> simp [h2, h1]
  have hst := h0.called_started i (h0.closed_called i hcl)
  refine ⟨(hmem _ (by simp) (by simp)).2 ((h0.log_fin i).2 hcl), ?_⟩
  rw [hmem _ (by simp) (by simp), h0.log_skip i]
  have : (∃ t, Event.initiated i t ∈ s.log) ↔ ∃ t, Event.initiated i t ∈ s0.log := by
    constructor
    · rintro ⟨t, ht⟩; exact ⟨t, (hmem _ (by simp) (by simp)).1 ht⟩
    · rintro ⟨t, ht⟩; exact ⟨t, (hmem _ (by simp) (by simp)).2 ht⟩
  rw [this, h0.log_init i, hst]
  simp

/-! ### C77 -/

private theorem start_not_crashed {c : Ctx} {s : State} {i : Nat} {a : ActionEntry}
    (ha : initiate c.rpcTable c.hasPeers a ≠ .crash) (h : s.phase ≠ .crashed) :
    (start c a i s).phase ≠ .crashed := by
  unfold start
  simp only []
  split
  · rw [finish_phase, callback_phase]; exact h
  · split
    · rename_i hx; exact absurd hx ha
    · exact h
    · exact h

/-- C77, the part that holds.  Running an accepted list never aborts the process, provided every
action names something to run or a response payload, and no activity has an open-loop interval. -/
theorem C77_partial (cfg : Tables.Config) (svc : Str) (c : Ctx) (hl : Loaded cfg svc c)
    (hrun : ∀ (i : Nat) a, c.entry.listActions[i]? = some a →
      (a.proto.kind = .none → ∃ p, a.proto.responsePayloadOverride = some p) ∧
      (∀ n it, a.proto.kind = .activity n → a.proto.iterations = some it →
        it.openLoopIntervalNs = none))
    (s : State) (hr : Reachable c s) : s.phase ≠ .crashed := by
  have hini : ∀ (i : Nat) a, c.entry.listActions[i]? = some a →
      initiate c.rpcTable c.hasPeers a ≠ .crash := by
    intro i a ha
    obtain ⟨h1, h2⟩ := hrun i a ha
    rw [loaded_initiate hl ha]
    obtain ⟨en, tb, k, g1, g2, -⟩ := hl
    obtain ⟨-, -, -, g3⟩ := loaded_entry g1 g2 ha
    cases hk : a.proto.kind with
    | none =>
      obtain ⟨p, hp⟩ := h1 hk
      have := g3 (by rw [hp]; rfl)
      simp only
      rw [if_pos this]
      simp
    | rpc n => simp only; split <;> simp
    | actionList n => simp
    | activity n =>
      simp only
      cases hit : a.proto.iterations with
      | none => simp
      | some it => simp [h2 n it hk hit]
    | replay n => simp
  induction hr with
  | init now b => simp [ActionList.init]
  | @step s s' _ hst ih =>
    cases hst with
    | main hm =>
      cases hm with
      | visit i delay hp hi =>
        have : (visit c delay i s).phase ≠ .crashed := by
          unfold visit
          split
          · exact ih
          · rename_i a ha
            simp only []
            split
            · exact ih
            · split
              · exact ih
              · split
                · exact ih
                · split
                  · exact ih
                  · exact start_not_crashed (hini i a ha) ih
        unfold advance
        rw [if_neg this]
        simp
      | scanned hp => simp only []; split <;> simp
      | wake hp hrd => simp
      | timeout hp hrd => simp
      | resume now hp hcn => simp
      | cancel hp hcn => simp
      | drain hp hrd => simp only []; split <;> simp
      | exit hp => simp [respondAndFree]
    | env he =>
      cases he with
      | callback i => rw [callback_phase]; exact ih
      | finish i => exact ih
      | activity i k => rw [finish_phase, callback_phase]; exact ih
      | cancel => exact ih

/-- C77, the end of the list, the part that holds.  The activity logs are collected from exactly the
activities that ran, if no activity was skipped. -/
theorem C77_logs_partial (cfg : Tables.Config) (svc : Str) (c : Ctx) (hl : Loaded cfg svc c)
    (s : State) (hr : Reachable c s) (hd : s.phase = .done)
    (hskip : ∀ i, c.activityAt i = true → .skipped i ∉ s.log) :
    ∃ l, readActivities c s.acts (List.range c.size) = .ok l ∧
      ∀ i, i ∈ l ↔ c.activityAt i = true ∧ ∃ t, .initiated i t ∈ s.log := by
  have h := inv_reachable (loaded_sane hl) hr
  rw [ActionList.Inv, if_pos hd] at h
  obtain ⟨s0, hp, h0, hs, hacts, hlog, hc0⟩ := h
  have hmem : ∀ e, (∀ b o, e ≠ .response b o) → e ≠ .freed → (e ∈ s.log ↔ e ∈ s0.log) := by
    intro e h1 h2
    rw [hlog]
    unfold respondAndFree
    simp only []
    split <;> simp [h2, h1]
  have hsk : ∀ i, c.activityAt i = true → (s.acts i).skipped = false := by
    intro i hi
    cases hx : (s.acts i).skipped with
    | false => rfl
    | true =>
      rw [hacts] at hx
      exact absurd ((hmem _ (by simp) (by simp)).2 ((h0.log_skip i).2 hx)) (hskip i hi)
  have key : ∀ r : List Nat, ∃ l, readActivities c s.acts r = .ok l ∧
      ∀ i, i ∈ l ↔ i ∈ r ∧ c.activityAt i = true ∧ (s.acts i).started = true := by
    intro r
    induction r with
    | nil => exact ⟨[], rfl, by simp⟩
    | cons j r ih =>
      obtain ⟨l, h1, h2⟩ := ih
      rw [readActivities]
      by_cases hj : (s.acts j).started = true ∧ c.activityAt j = true
      · rw [if_pos hj, hsk j hj.2, h1]
        refine ⟨j :: l, rfl, ?_⟩
        intro i
        simp only [List.mem_cons, h2 i]
        grind
      · rw [if_neg hj]
        refine ⟨l, h1, ?_⟩
        intro i
        rw [h2 i, List.mem_cons]
        grind
  obtain ⟨l, h1, h2⟩ := key (List.range c.size)
  refine ⟨l, h1, ?_⟩
  intro i
  have hin : (∃ t, Event.initiated i t ∈ s.log) ↔ ∃ t, Event.initiated i t ∈ s0.log := by
    constructor
    · rintro ⟨t, ht⟩; exact ⟨t, (hmem _ (by simp) (by simp)).1 ht⟩
    · rintro ⟨t, ht⟩; exact ⟨t, (hmem _ (by simp) (by simp)).2 ht⟩
  rw [h2 i, hin, h0.log_init i, List.mem_range, hacts]
  constructor
  · rintro ⟨a, b, d⟩
    exact ⟨b, d, by rw [← hacts]; exact hsk i b⟩
  · rintro ⟨b, d, -⟩
    exact ⟨h0.started_lt i d, b, d⟩

/-! ### concrete executions -/

/-- The sample configuration with a predicate that gates both actions' successor, an early
response and a delay. -/
def gatedConfig : Tables.Config :=
  { sampleConfig with
    sizeDistributions := [{ name := "sz".toList, fieldNames := fields1d, cdfPoints := [{ value := 7, cdf := .num 1 }] }]
    payloads := [{ name := "small".toList, size := some 100 },
                 { name := "drawn".toList, sizeDistributionName := some "sz".toList }]
    actions := [{ name := "first".toList, kind := .rpc "query".toList },
                { name := "size".toList, responsePayloadOverride := some "drawn".toList },
                { name := "reply".toList, kind := .rpc "query".toList,
                  dependencies := ["size".toList], sendResponseWhenDone := true },
                { name := "gated".toList, kind := .activity "burn".toList,
                  predicates := ["p".toList] },
                { name := "after".toList, dependencies := ["gated".toList],
                  kind := .rpc "query".toList }]
    actionLists := [{ name := "client".toList,
                      actionNames := ["first".toList, "size".toList, "reply".toList,
                        "gated".toList, "after".toList],
                      predicateProbabilities := [("p".toList, 1 / 2)] },
                    { name := "query".toList }] }

/-- A schedule of that list in which the predicate does not hold. -/
def gatedSchedule : List Cmd :=
  List.replicate 5 (.visit 0) ++ [.scanned, .wake, .resume 5] ++
  List.replicate 5 (.visit 0) ++ [.callback 1, .finish 1, .callback 0, .finish 0, .scanned, .wake,
    .resume 6] ++
  List.replicate 5 (.visit 0) ++ [.scanned, .callback 2, .finish 2, .wake, .resume 7] ++
  List.replicate 5 (.visit 0) ++ [.scanned, .exit]

/-- What happens: the response is sent by the marked action with the size another action has set,
and the gated action and its successor are skipped. -/
theorem gated_run : ∃ c s, Loaded gatedConfig "client".toList c ∧
    c.predicates = drawnPredicates c.entry.proto.predicateProbabilities (fun _ => 1) ∧
    Reachable c s ∧ s.phase = .done ∧ s.canceled = false ∧
    s.log = [.freed, .finished 2, .response (some 2) 0, .initiated 2 6, .finished 0, .finished 1,
      .finished 4, .skipped 4, .finished 3, .skipped 3, .initiated 1 0, .initiated 0 0] ∧
    readActivities c s.acts (List.range c.size) = .ub := by
  obtain ⟨c, s, h1, -, h2, h3, h4⟩ := exists_reachable (e := sampleEnv) (cfg := gatedConfig)
    (svc := "client".toList) (k := 0) (hasPeers := fun _ => true) (predicates := ["!p".toList])
    gatedSchedule 0
    (fun c s => decide (c.predicates =
        drawnPredicates c.entry.proto.predicateProbabilities (fun _ => 1)) &&
      (decide (s.phase = .done) && !s.canceled &&
      decide (s.log = [.freed, .finished 2, .response (some 2) 0, .initiated 2 6, .finished 0,
        .finished 1, .finished 4, .skipped 4, .finished 3, .skipped 3, .initiated 1 0,
        .initiated 0 0]) &&
      (match readActivities c s.acts (List.range c.size) with | .ub => true | _ => false)))
    (by decide +kernel)
  simp only [Bool.and_eq_true, decide_eq_true_eq, Bool.not_eq_true'] at h4
  refine ⟨c, s, h1, h4.1, h3, h4.2.1.1.1, h4.2.1.1.2, h4.2.1.2, ?_⟩
  have := h4.2.2
  split at this
  · assumption
  · simp at this

/-- C77 is false: at the end of an accepted list with a skipped activity a null pointer is
dereferenced. -/
theorem C77_skipped_activity : ∃ cfg svc c s, Loaded cfg svc c ∧ Reachable c s ∧ s.phase = .done ∧
    readActivities c s.acts (List.range c.size) = .ub := by
  obtain ⟨c, s, h1, -, h2, h3, -, -, h4⟩ := gated_run
  exact ⟨_, _, c, s, h1, h2, h3, h4⟩

/-- The sample configuration with an action that names nothing to run. -/
def emptyActionConfig : Tables.Config :=
  { sampleConfig with
    actions := [{ name := "first".toList }]
    actionLists := [{ name := "client".toList, actionNames := ["first".toList] },
                    { name := "query".toList }] }

/-- The sample configuration with an open-loop activity. -/
def openLoopActivityConfig : Tables.Config :=
  { sampleConfig with
    actions := [{ name := "first".toList, kind := .activity "burn".toList,
                  iterations := some { openLoopIntervalNs := some 1000 } }]
    actionLists := [{ name := "client".toList, actionNames := ["first".toList] },
                    { name := "query".toList }] }

/-- C77 is false: an accepted list with an action that names nothing to run aborts the process. -/
theorem C77_empty_action : ∃ c s, Loaded emptyActionConfig "client".toList c ∧ Reachable c s ∧
    s.phase = .crashed := by
  obtain ⟨c, s, h1, -, -, h3, h4⟩ := exists_reachable (e := sampleEnv) (cfg := emptyActionConfig)
    (svc := "client".toList) (k := 0) (hasPeers := fun _ => true) (predicates := []) [.visit 0] 0
    (fun _ s => decide (s.phase = .crashed)) (by decide +kernel)
  exact ⟨c, s, h1, h3, by simpa using h4⟩

/-- C77 is false: an accepted list with an open-loop activity aborts the process. -/
theorem C77_open_loop_activity : ∃ c s, Loaded openLoopActivityConfig "client".toList c ∧
    Reachable c s ∧ s.phase = .crashed := by
  obtain ⟨c, s, h1, -, -, h3, h4⟩ := exists_reachable (e := sampleEnv)
    (cfg := openLoopActivityConfig) (svc := "client".toList) (k := 0) (hasPeers := fun _ => true)
    (predicates := []) [.visit 0] 0 (fun _ s => decide (s.phase = .crashed)) (by decide +kernel)
  exact ⟨c, s, h1, h3, by simpa using h4⟩

/-! Every theorem above applies to that run. -/

example : ∃ c s, Loaded gatedConfig "client".toList c ∧ Reachable c s ∧
    (∃ later earlier e, s.log = later ++ e :: earlier ∧ IsStart 2 e ∧ c.deps 2 ≠ []) := by
  obtain ⟨c, s, h1, -, -, h3, h4⟩ := exists_reachable (e := sampleEnv) (cfg := gatedConfig)
    (svc := "client".toList) (k := 0) (hasPeers := fun _ => true) (predicates := ["!p".toList])
    gatedSchedule 0 (fun c s => decide (c.deps 2 ≠ []) && decide (s.log.drop 3 =
      [.initiated 2 6, .finished 0, .finished 1,
      .finished 4, .skipped 4, .finished 3, .skipped 3, .initiated 1 0, .initiated 0 0]))
    (by decide +kernel)
  simp only [Bool.and_eq_true, decide_eq_true_eq] at h4
  refine ⟨c, s, h1, h3, s.log.take 3, s.log.drop 4, .initiated 2 6, ?_, .inr ⟨6, rfl⟩, h4.1⟩
  rw [show s.log.drop 4 = (s.log.drop 3).drop 1 by rw [List.drop_drop], h4.2]
  exact (List.take_append_drop 3 s.log).symm.trans (by rw [h4.2]; rfl)

example : ∃ c s mid before by_ o, Loaded gatedConfig "client".toList c ∧ Reachable c s ∧
    s.log = .freed :: (mid ++ .response by_ o :: before) := by
  obtain ⟨c, s, h1, -, h3, h4, -, -, -⟩ := gated_run
  obtain ⟨m, b, y, o, h, -⟩ := C31_once _ _ c h1 s h3 h4
  exact ⟨c, s, m, b, y, o, h1, h3, h⟩

example : ∃ c, ToSkip c (Holds c.entry.proto.predicateProbabilities (fun _ => 1)) 4 ∧
    ¬ ToSkip c (Holds c.entry.proto.predicateProbabilities (fun _ => 1)) 2 := by
  obtain ⟨c, s, h1, h2, h3, h4, -, hlog, -⟩ := gated_run
  have h := C32_predicates _ _ c h1 _ h2 s h3
  exact ⟨c, (h 4).1 (by rw [hlog]; simp), (h 2).2 6 (by rw [hlog]; simp)⟩

/-- A list whose second action is delayed by a drawn amount. -/
def delayedConfig : Tables.Config :=
  { sampleConfig with
    delayDistributions := [{ name := "wait".toList, fieldNames := delayFields,
                             cdfPoints := [{ value := 10, cdf := .num 1 }] }]
    actions := [{ name := "first".toList, kind := .rpc "query".toList },
                { name := "second".toList, dependencies := ["first".toList],
                  kind := .activity "burn".toList, delayDistributionName := some "wait".toList }] }

/-- The delay of a delayed action passes before it runs. -/
example : ∃ c s later earlier, Loaded delayedConfig "client".toList c ∧ Reachable c s ∧
    s.log = later ++ .initiated 1 13 :: earlier ∧
    ∃ a n, c.entry.listActions[1]? = some a ∧ a.proto.delayDistributionName = some n := by
  obtain ⟨c, s, h1, -, -, h3, h4⟩ := exists_reachable (e := sampleEnv) (cfg := delayedConfig)
    (svc := "client".toList) (k := 0) (hasPeers := fun _ => true) (predicates := [])
    [.visit 0, .visit 0, .scanned, .callback 0, .finish 0, .wake, .resume 3, .visit 0, .visit 10,
     .scanned, .wake, .resume 12, .visit 0, .visit 0, .scanned, .wake, .resume 13, .visit 0,
     .visit 0] 0
    (fun c s => decide (s.log = [.initiated 1 13, .armed 1 3 10, .finished 0, .initiated 0 0]) &&
      decide ((c.entry.listActions[1]?.bind (·.proto.delayDistributionName)).isSome))
    (by decide +kernel)
  simp only [Bool.and_eq_true, decide_eq_true_eq, Option.isSome_iff_exists,
    Option.bind_eq_some_iff] at h4
  obtain ⟨hlog, n, a, ha, hn⟩ := h4
  exact ⟨c, s, [], _, h1, h3, hlog, a, n, ha, hn⟩

/-- The sample list satisfies the hypotheses of `C77_partial`. -/
example : ∃ c, Loaded sampleConfig "client".toList c ∧ c.size = 2 ∧
    ∀ (i : Nat) a, c.entry.listActions[i]? = some a →
      (a.proto.kind = .none → ∃ p, a.proto.responsePayloadOverride = some p) ∧
      (∀ n it, a.proto.kind = .activity n → a.proto.iterations = some it →
        it.openLoopIntervalNs = none) := by
  obtain ⟨c, s, h1, -, -, h3, h4⟩ := exists_reachable (e := sampleEnv) (cfg := sampleConfig)
    (svc := "client".toList) (k := 0) (hasPeers := fun _ => true) (predicates := []) [] 0
    (fun c _ => decide (c.size = 2) && c.entry.listActions.all (fun a =>
      decide (a.proto.kind ≠ .none) && decide (a.proto.iterations = none)))
    (by decide +kernel)
  simp only [Bool.and_eq_true, decide_eq_true_eq, List.all_eq_true] at h4
  refine ⟨c, h1, h4.1, ?_⟩
  intro i a ha
  have := h4.2 a (List.mem_of_getElem? ha)
  refine ⟨fun hk => absurd hk this.1, ?_⟩
  intro n it _ hit
  rw [this.2] at hit
  simp at hit

end Distbench
