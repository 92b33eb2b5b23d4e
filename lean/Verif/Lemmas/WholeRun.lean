import Verif.Lemmas.WholePick

/-! Lemmas for Props/Whole.lean: the steps that engines take on the grounds of their own tables are steps
of the test as seen from outside. -/

namespace Distbench.Whole
open Tables Services Spec

/-- The fan-out of an RPC by its number. -/
def fanAt (cfg : Config) (fan : Str → Nat) (q : Nat) : Nat := ((cfg.rpcs[q]?).map fun r => fan r.name).getD 0

/-- The engines of a test have a service. -/
def HasService (w : Test) (e : Nat) : Prop :=
  ∃ i s, serviceOf w.cfg e = some i ∧ w.cfg.services[i]? = some s

theorem hasService {w : Test} {e i : Nat} (h : serviceOf w.cfg e = some i) : HasService w e := by
  obtain ⟨s, hs⟩ := service_exists h
  exact ⟨i, s, h, hs⟩

theorem mem_roots {cfg : Config} {e l : Nat} (h : (e, l) ∈ roots cfg) :
    ∃ i, serviceOf cfg e = some i ∧ rootList cfg i = some l := by
  unfold roots at h
  obtain ⟨p, hp, hl⟩ := List.mem_filterMap.1 h
  obtain ⟨l', h1, h2⟩ := Option.map_eq_some_iff.1 hl
  cases h2
  refine ⟨p.1.1, serviceOf_some.2 ⟨p.1.2, ?_⟩, h1⟩
  exact List.mem_zipIdx_iff_getElem?.1 hp

theorem servers_service {w : Test} {fan : Nat → Nat} {q t : Nat} (h : (globalConfig w fan).servers q t = true) :
    ∃ i, serviceOf w.cfg t = some i ∧ serverOf (w.tables 0) q = some i := by
  simp only [globalConfig, Bool.and_eq_true, decide_eq_true_eq, Option.isSome_iff_exists] at h
  obtain ⟨⟨i, hi⟩, h2⟩ := h
  exact ⟨i, by rw [h2, hi], hi⟩

theorem mayRun_service {w : Test} {fan : Nat → Nat} {e l : Nat} (h : MayRun (globalConfig w fan) e l) :
    HasService w e := by
  induction h with
  | root hr =>
    obtain ⟨i, hi, -⟩ := mem_roots hr
    exact hasService hi
  | handler hs _ =>
    obtain ⟨i, hi, -⟩ := servers_service hs
    exact hasService hi
  | nested _ _ _ ih => exact ih

theorem engine_actions {e : Env} {w : Test} (hs : SoundTest e w) {eng : Nat} (hp : HasService w eng)
    (fan : Nat → Nat) (l : Nat) :
    (engineConfig w fan eng).actions l = (actionsOf (w.tables 0) l).map (toAction fan) := by
  obtain ⟨i, s, h1, h2⟩ := hp
  simp only [engineConfig, h1, Option.getD_some]
  rw [same_actions hs h2]

theorem engine_servers {e : Env} {w : Test} (hs : SoundTest e w) {eng : Nat} (hp : HasService w eng)
    (fan fan' : Nat → Nat) : (engineConfig w fan eng).servers = (globalConfig w fan').servers := by
  obtain ⟨i, s, h1, h2⟩ := hp
  funext q t
  simp only [engineConfig, globalConfig, h1, Option.getD_some]
  rw [same_server hs h2]

theorem start_global {e : Env} {w : Test} (hs : SoundTest e w) (fan : Nat → Nat) :
    start w = Traffic.initial (globalConfig w fan) := by
  unfold start Traffic.initial
  congr 1
  show _ = (roots w.cfg).map _
  refine List.map_congr_left fun r hr => ?_
  obtain ⟨i, hi, -⟩ := mem_roots (e := r.1) (l := r.2) hr
  exact newJob_congr (engine_actions hs (hasService hi) _) (fun _ => rfl) _ _ _

/-- The targets that an engine chooses are as many as the fan-out says, and are servers of the RPC. -/
theorem picks_global {e : Env} {w : Test} {fan : Str → Nat} (hs : SoundTest e w) (hf : FanOuts w.cfg fan)
    {eng l a q k : Nat} {x : ActionEntry} {f : Nat → Nat} {targets : List Nat}
    (hx : (actionsOf (w.tables 0) l)[a]? = some x) (hw : toWork f x = .rpc q k)
    (hp : Picks w eng x targets) : targets.length = fanAt w.cfg fan q ∧
      ∀ t ∈ targets, (globalConfig w (fanAt w.cfg fan)).servers q t = true := by
  obtain ⟨i, r, sv, h1, h2, h3, h4, h5, h6, -⟩ := rpc_work hs hx hw
  obtain ⟨g1, g2⟩ := picks_spec hs h2 h3 h4 h5 h6 (hf r (List.mem_of_getElem? h4)) hp
  constructor
  · rw [g1, fanAt, h4]
    rfl
  · intro t ht
    obtain ⟨s0, h0⟩ := first_service hs
    have hlt : q < (w.tables 0).rpcTable.length := by
      rw [rpcTable_length (hs.tables 0 s0 h0)]
      exact (List.getElem?_eq_some_iff.1 h4).1
    obtain ⟨spec, a1, -, -, -, ⟨k', sv', a5, a6, a7, -⟩, -⟩ := rpc_entry hs h0 (List.getElem?_eq_getElem hlt)
    rw [h4] at a1
    cases a1
    have := names_inj hs.distinct.services h5 a6 (h6.trans a7.symm)
    subst this
    have hso : serverOf (w.tables 0) q = some i := by
      unfold serverOf
      rw [List.getElem?_eq_getElem hlt]
      simp only [Option.map_some, a5, Int.toNat_natCast]
    simp only [globalConfig, hso, g2 t ht]
    rfl

variable {R : Nat → Prop}

/-- The engine that takes a step has a service. -/
theorem engineOf_service {w : Test} {F : Nat → Nat} {s : Traffic.State} {op : Traffic.Op}
    (hinv : Traffic.Inv (globalConfig w F) R s)
    (hne : ∀ j a t, (op = .start j a ∨ op = .skip j a ∨ op = .iterate j a t ∨ op = .finish j a ∨ op = .endJob j) →
      s.jobs[j]? ≠ none)
    (hnc : ∀ c, (op = .deliver c ∨ op = .dispatch c ∨ op = .complete c) → s.calls[c]? ≠ none) :
    HasService w (engineOf s op) := by
  have hj : ∀ j : Nat, s.jobs[j]? ≠ none → HasService w (((s.jobs[j]?).map (·.engine)).getD 0) := by
    intro j hj
    obtain ⟨k, hk⟩ := Option.ne_none_iff_exists'.1 hj
    rw [hk]
    exact mayRun_service (hinv.may j k hk)
  have hc : ∀ c : Nat, s.calls[c]? ≠ none → HasService w (((s.calls[c]?).map (·.target)).getD 0) := by
    intro c hc
    obtain ⟨r, hr⟩ := Option.ne_none_iff_exists'.1 hc
    obtain ⟨_, _, _, _, _, _, _, _, h, _⟩ := hinv.made c r hr
    obtain ⟨i, hi, -⟩ := servers_service h
    rw [hr]
    exact hasService hi
  cases op with
  | start j a => exact hj j (hne j a [] (.inl rfl))
  | skip j a => exact hj j (hne j a [] (.inr (.inl rfl)))
  | iterate j a t => exact hj j (hne j a t (.inr (.inr (.inl rfl))))
  | finish j a => exact hj j (hne j a [] (.inr (.inr (.inr (.inl rfl)))))
  | endJob j => exact hj j (hne j 0 [] (.inr (.inr (.inr (.inr rfl)))))
  | deliver c => exact hc c (hnc c (.inl rfl))
  | dispatch c => exact hc c (hnc c (.inr (.inl rfl)))
  | complete c => exact hc c (hnc c (.inr (.inr rfl)))

/-- A step of any configuration is about an existing job or call. -/
theorem step_exists {c : Traffic.Config} {s s' : Traffic.State} {op : Traffic.Op}
    (h : Traffic.step c s op = some s') :
    (∀ j a t, (op = .start j a ∨ op = .skip j a ∨ op = .iterate j a t ∨ op = .finish j a ∨ op = .endJob j) →
      s.jobs[j]? ≠ none) ∧
    (∀ c, (op = .deliver c ∨ op = .dispatch c ∨ op = .complete c) → s.calls[c]? ≠ none) := by
  constructor
  · intro j a t hop hj
    rcases hop with rfl | rfl | rfl | rfl | rfl <;> simp [Traffic.step, Traffic.startable, hj] at h
  · intro k hop hk
    rcases hop with rfl | rfl | rfl <;> simp [Traffic.step, hk] at h

/-- Both ways of looking at a step agree. -/
theorem step_same {e : Env} {w : Test} {F : Nat → Nat} (hs : SoundTest e w)
    {s : Traffic.State} {op : Traffic.Op} (hinv : Traffic.Inv (globalConfig w F) R s)
    (hp : HasService w (engineOf s op))
    (hi : ∀ j a targets job x q, op = .iterate j a targets → s.jobs[j]? = some job →
      (actionsOf (w.tables 0) job.list)[a]? = some x → toWork (fun _ => 0) x = .rpc q 0 → targets.length = F q) :
    Traffic.step (engineConfig w (fun _ => fanOf op) (engineOf s op)) s op =
      Traffic.step (globalConfig w F) s op := by
  refine step_congr (c := engineConfig w (fun _ => fanOf op) (engineOf s op)) (c' := globalConfig w F)
    (L := actionsOf (w.tables 0)) (f := fun _ => fanOf op) (f' := F)
    (engine_actions hs hp _) (fun _ => rfl) rfl ?_ ?_
  · intro k r hop hr
    have he : engineOf s op = r.target := by
      rcases hop with rfl | rfl <;> simp [engineOf, hr]
    obtain ⟨_, _, _, _, _, _, _, _, h, _⟩ := hinv.made k r hr
    obtain ⟨i, sv, h1, h2⟩ := hp
    rw [he] at h1 ⊢
    rw [← same_handler hs F h2 h1 h]
    simp only [engineConfig, h1, Option.getD_some]
  · intro j a targets job x q hop hj hx hw
    refine ⟨?_, fun t _ => by rw [engine_servers hs hp _ F]⟩
    subst hop
    refine hi j a targets job x q rfl hj hx ?_
    rcases toWork_cases (fun _ => targets.length) x with ⟨q', hq⟩ | ⟨-, hne⟩
    · have h1 := hq (fun _ => targets.length)
      have : q' = q := by
        have := h1.symm.trans hw
        injection this
      rw [hq, this]
    · exact absurd hw (hne _ _)

/-- Every step of an engine is one of the test as a whole. -/
theorem step_global {e : Env} {w : Test} {fan : Str → Nat} (hs : SoundTest e w) (hf : FanOuts w.cfg fan)
    {s s' : Traffic.State} {op : Traffic.Op} (hinv : Traffic.Inv (globalConfig w (fanAt w.cfg fan)) R s)
    (h : Step w s op s') : Traffic.step (globalConfig w (fanAt w.cfg fan)) s op = some s' := by
  obtain ⟨hc, h⟩ := h
  obtain ⟨x1, x2⟩ := step_exists h
  have hp := engineOf_service hinv x1 x2
  rw [← step_same hs hinv hp ?_]
  · exact h
  intro j a targets job x q hop hj hx hw
  subst hop
  have he : engineOf s (.iterate j a targets) = job.engine := by simp [engineOf, hj]
  rw [he] at hp
  obtain ⟨i, sv, h1, h2⟩ := hp
  refine (picks_global hs hf hx hw (hc job x hj ?_ ⟨q, 0, hw⟩)).1
  rw [h1, Option.getD_some, same_actions hs h2]
  exact hx

theorem run_snoc {c : Traffic.Config} {ops : List Traffic.Op} {s s' t : Traffic.State} {op : Traffic.Op}
    (h : Traffic.run c t ops = some s) (h' : Traffic.step c s op = some s') :
    Traffic.run c t (ops ++ [op]) = some s' := by
  rw [Traffic.run_append, h]
  simp [Traffic.run, h']

/-- What the engines do together is a run of the test as a whole. -/
theorem runs_global {e : Env} {w : Test} {fan : Str → Nat} (hs : SoundTest e w) (hf : FanOuts w.cfg fan)
    {ops : List Traffic.Op} {s : Traffic.State} (h : Runs w ops s) :
    TrafficRun (globalConfig w (fanAt w.cfg fan)) ops s := by
  induction h with
  | start => unfold TrafficRun; rw [start_global hs (fanAt w.cfg fan)]; rfl
  | step op _ hstep ih => exact run_snoc ih (step_global hs hf (Traffic.inv_run ih) hstep)

end Distbench.Whole
