import Verif.Lemmas.LoopsIter
import Verif.Lemmas.LoopsMain
import Verif.Lemmas.ActionListTables
import Verif.Spec.Loops

/-! The traffic of Model/Loops.lean as seen from outside is that of Model/WholeTime.lean: the view. -/

namespace Distbench.Loops
open Tables Services Whole Spec

/-! ### The view -/

def itersOf (k : Job) (a : Nat) : Nat :=
  match k.entry.listActions[a]? with
  | none => 0
  | some x => (toAction (fun _ => 0) x).iters

def logOf (k : Job) (a : Nat) : List Iterations.Event :=
  match k.under a with
  | none => []
  | some u => u.state.log

def logAt (s : State) (j a : Nat) : List Iterations.Event :=
  match s.jobs[j]? with
  | none => []
  | some k => logOf k a

/-- The number of an iteration in the view: they are numbered downwards there, by the order of their
beginnings. -/
def number (s : State) (j a n : Nat) : Nat :=
  match s.jobs[j]? with
  | none => 0
  | some k => itersOf k a - 1 - Iterations.place n (logOf k a)

def absParent (s : State) : Traffic.Parent → Traffic.Parent
  | .action j a n => .action j a (number s j a n)
  | p => p

def absAct (k : Job) (a : Nat) : Traffic.Act :=
  if (k.main.acts a).started = false then .waiting
  else if (k.main.acts a).skipped = true then .skipped
  else if (k.main.acts a).called = true then .finished
  else .running (itersOf k a - allStarts (logOf k a))

def earlyOf (k : Job) : Option Nat :=
  (List.range k.entry.listActions.length).find? fun i => (k.main.acts i).sender

def absJob (s : State) (k : Job) : Traffic.Job :=
  { engine := k.engine
    list := k.list
    parent := absParent s k.parent
    acts := (List.range k.entry.listActions.length).map (absAct k)
    early := earlyOf k
    over := decide (k.main.phase = .done) }

def absCall (s : State) (r : Traffic.Call) : Traffic.Call := { r with iter := number s r.job r.action r.iter }

def abs (s : State) : Traffic.State := ⟨s.jobs.map (absJob s), s.calls.map (absCall s)⟩

/-! ### The invariant -/

structure JobOk (w : Test) (k : Job) : Prop where
  entry : (tablesOf w k.engine).actionLists[k.list]? = some k.entry
  main : ActionList.Inv (k.ctx w) k.main
  live : k.main.canceled = false
  under : ∀ a u, k.under a = some u → ∃ x, k.entry.listActions[a]? = some x ∧
    Iterations.Good (k.params x u) u.state ∧ (k.main.acts a).started = true ∧
    (k.main.acts a).skipped = false ∧ (k.main.acts a).stuck = false ∧
    ((k.main.acts a).called = true ↔ 0 < reports u.state.log)
  called : ∀ a, (k.main.acts a).called = true → (k.main.acts a).skipped = true ∨ k.under a ≠ none

/-- The iteration `n` of the action `a` of the run `j` has begun, and not ended unless `over`. -/
def Owned (s : State) (j a n : Nat) (over : Prop) : Prop :=
  0 < starts n (logAt s j a) ∧ (¬ over → ends n (logAt s j a) < starts n (logAt s j a))

structure Inv (w : Test) (s : State) : Prop where
  jobs : ∀ (j : Nat) k, s.jobs[j]? = some k → JobOk w k
  calls : ∀ r ∈ s.calls, Owned s r.job r.action r.iter (r.stage = .completed)
  parents : ∀ k ∈ s.jobs, ∀ j a n, k.parent = .action j a n → Owned s j a n (k.main.phase = .done)

theorem tables_same {e : Env} {w : Test} (hs : SoundTest e w) (eng l : Nat) :
    actionsOf (tablesOf w eng) l = actionsOf (w.tables 0) l := by
  unfold tablesOf
  cases h : serviceOf w.cfg eng with
  | none => rfl
  | some i =>
    obtain ⟨s, hi⟩ := service_exists h
    rw [Option.getD_some, same_actions hs hi]

theorem actions_entry {w : Test} {k : Job}
    (h : (tablesOf w k.engine).actionLists[k.list]? = some k.entry) :
    actionsOf (tablesOf w k.engine) k.list = k.entry.listActions := by
  unfold actionsOf
  rw [h]
  rfl

theorem tables_loaded {e : Env} {w : Test} (hs : SoundTest e w) (eng : Nat) :
    ∃ svc, initTables e w.cfg svc = .ok (tablesOf w eng) := by
  unfold tablesOf
  cases h : serviceOf w.cfg eng with
  | none =>
    obtain ⟨s0, h0⟩ := first_service hs
    exact ⟨_, hs.tables 0 s0 h0⟩
  | some i =>
    obtain ⟨s, hi⟩ := service_exists h
    exact ⟨_, hs.tables i s hi⟩

theorem sane {e : Env} {w : Test} (hs : SoundTest e w) {k : Job}
    (h : (tablesOf w k.engine).actionLists[k.list]? = some k.entry) : ActionList.Sane (k.ctx w) := by
  obtain ⟨svc, ht⟩ := tables_loaded hs k.engine
  exact ActionList.loaded_sane (cfg := w.cfg) (svc := svc) ⟨e, _, k.list, ht, h, rfl⟩

theorem entry_zero {e : Env} {w : Test} (hs : SoundTest e w) {k : Job}
    (h : (tablesOf w k.engine).actionLists[k.list]? = some k.entry) {a : Nat} {x : ActionEntry}
    (hx : k.entry.listActions[a]? = some x) : (actionsOf (w.tables 0) k.list)[a]? = some x := by
  rw [← tables_same hs k.engine, actions_entry h]
  exact hx

theorem proto_mem {e : Env} {w : Test} (hs : SoundTest e w) {k : Job}
    (h : (tablesOf w k.engine).actionLists[k.list]? = some k.entry) {a : Nat} {x : ActionEntry}
    (hx : k.entry.listActions[a]? = some x) : x.proto ∈ w.cfg.actions := by
  obtain ⟨al, -, -, h3, -⟩ := entry_at hs (entry_zero hs h hx)
  exact h3

theorem no_cancel {e : Env} {w : Test} (hs : SoundTest e w) (hp : LoopTest w.cfg) {k : Job}
    (h : (tablesOf w k.engine).actionLists[k.list]? = some k.entry) (i : Nat) :
    (k.ctx w).cancelsAt i = false := by
  unfold ActionList.Ctx.cancelsAt
  cases hx : (k.ctx w).entry.listActions[i]? with
  | none => rfl
  | some x => exact hp.cancel _ (proto_mem hs h hx)

theorem no_activity {e : Env} {w : Test} (hs : SoundTest e w) (hp : LoopTest w.cfg) {k : Job}
    (h : (tablesOf w k.engine).actionLists[k.list]? = some k.entry) (i : Nat) :
    (k.ctx w).activityAt i = false := by
  unfold ActionList.Ctx.activityAt
  cases hx : (k.ctx w).entry.listActions[i]? with
  | none => rfl
  | some x =>
    have := hp.activities _ (proto_mem hs h hx)
    show ActionList.isActivity x = false
    unfold ActionList.isActivity
    cases hk : x.proto.kind with
    | activity n => exact absurd hk (this n)
    | _ => rfl

theorem engine_entries {w : Test} {k : Job} (h : (tablesOf w k.engine).actionLists[k.list]? = some k.entry)
    (fan : Nat → Nat) : (engineConfig w fan k.engine).actions k.list = k.entry.listActions.map (toAction fan) := by
  show (actionsOf (tablesOf w k.engine) k.list).map _ = _
  rw [actions_entry h]

theorem opens_ok {w : Test} {eng l : Nat} {p : Traffic.Parent} {k : Job} (h : Opens w eng l p k) : JobOk w k := by
  obtain ⟨entry, draw, now, warmup, h1, rfl⟩ := h
  exact ⟨h1, ActionList.inv_init _ _ _, rfl, (fun a u hu => by cases hu), fun a ha => by cases ha⟩

/-! ### Parameters -/

theorem params_eq (x : ActionEntry) (fan : Nat → Nat) (now : Int) (b : Bool) :
    (toAction fan x).iters = (Iterations.params x.proto now b).limit.toNat ∧
    (toAction fan x).parallel = (if (Iterations.params x.proto now b).openLoop
      then (Iterations.params x.proto now b).limit else (Iterations.params x.proto now b).copies).toNat ∧
    ((toAction fan x).timed = none → (Iterations.params x.proto now b).timeLimit = .future) ∧
    ((toAction fan x).timed ≠ none → (toAction fan x).timed.getD 0 =
      (if (Iterations.params x.proto now b).openLoop then 1 else (Iterations.params x.proto now b).copies).toNat) := by
  have e1 : (Iterations.params x.proto now b).limit = (Iterations.params x.proto 0 false).limit := rfl
  have e2 : (Iterations.params x.proto now b).copies = (Iterations.params x.proto 0 false).copies := rfl
  have e3 : (Iterations.params x.proto now b).openLoop = (Iterations.params x.proto 0 false).openLoop := rfl
  have e4 : (Iterations.params x.proto 0 false).timeLimit = .future →
      (Iterations.params x.proto now b).timeLimit = .future := by
    unfold Iterations.params
    dsimp only
    cases (x.proto.iterations.getD {}).maxDurationUs with
    | none => exact fun _ => rfl
    | some us => exact fun h => by cases h
  rw [e1, e2, e3]
  unfold toAction
  dsimp only
  clear e1 e2 e3
  revert e4
  generalize (Iterations.params x.proto now b).timeLimit = T'
  generalize Iterations.params x.proto 0 false = P
  intro e4
  obtain ⟨limit, T, copies, o, _, _, _, _, _⟩ := P
  dsimp only at e4 ⊢
  refine ⟨rfl, ?_, ?_, ?_⟩
  · cases o <;> rfl
  · cases T with
    | future => exact fun _ => e4 rfl
    | past => exact fun h => by cases h
    | «at» ns => exact fun h => by cases h
  · cases T with
    | future => exact fun h => absurd rfl h
    | past => cases o <;> exact fun _ => rfl
    | «at» ns => cases o <;> exact fun _ => rfl

theorem limit_params {a : Action} (now : Int) (b : Bool) (h : ∀ it, a.iterations = some it → 1 ≤ it.maxParallelIterations ∧
    match it.maxIterationCount with
    | some n => 1 ≤ n ∧ n < 2 ^ 31
    | none => it.maxDurationUs ≠ none ∧ it.maxParallelIterations < 2 ^ 31) :
    0 < (Iterations.params a now b).copies ∧
    (Iterations.params a now b).copies ≤ (Iterations.params a now b).limit ∧ 0 < (Iterations.params a now b).limit := by
  unfold Iterations.params
  cases hi : a.iterations with
  | none => simp [Iterations.narrow]
  | some it =>
    obtain ⟨h1, h2⟩ := h it hi
    dsimp only [Option.getD_some]
    cases hc : it.maxIterationCount with
    | none =>
      rw [hc] at h2
      dsimp only [Option.getD_none] at h2 ⊢
      rw [narrow_small (by omega) (by omega)]
      omega
    | some n =>
      rw [hc] at h2
      dsimp only [Option.getD_some] at h2 ⊢
      rw [narrow_small (by omega) (by omega)]
      omega

theorem good_initiate {a : Action} {now spread : Int} {b : Bool} {st : Iterations.State}
    (h : ∀ it, a.iterations = some it → 1 ≤ it.maxParallelIterations ∧
      match it.maxIterationCount with
      | some n => 1 ≤ n ∧ n < 2 ^ 31
      | none => it.maxDurationUs ≠ none ∧ it.maxParallelIterations < 2 ^ 31)
    (ha : ∀ n, a.kind ≠ .activity n) (hi : Iterations.initiate a now b false spread = .ok st) :
    Iterations.Good (Iterations.params a now b) st ∧ st.log = [] := by
  obtain ⟨h1, h2, h3⟩ := limit_params now b h
  have hact : (Iterations.params a now b).activity = false := by
    unfold Iterations.params
    cases hk : a.kind with
    | activity n => exact absurd hk (ha n)
    | _ => rfl
  unfold Iterations.initiate at hi
  dsimp only at hi
  have hlog := Iterations.begin_log hi
  have hnar : (Iterations.params a now b).copies < 2 ^ 31 := by
    unfold Iterations.params Iterations.narrow
    dsimp only
    omega
  have hfirst : ∀ d period now spread, Iterations.firstTime d period now spread ≠ .future := by
    intro d period now spread
    unfold Iterations.firstTime
    dsimp only
    split
    · split <;> simp [Iterations.Time.add]
    · split
      · split <;> simp [Iterations.Time.add]
      · simp
  refine ⟨⟨hlog.2.1, hact, ?_, ?_, h3, ?_⟩, hlog.1⟩
  rotate_left
  · unfold Iterations.begin at hi
    split at hi
    · split at hi
      · cases hi
      · injection hi with hi
        rw [← hi]
        exact show (0 : Int) < 2 ^ 31 by decide
    · split at hi
      · cases hi
      · injection hi with hi
        rw [← hi]
        exact hnar
  · intro ho hf
    exfalso
    unfold Iterations.begin at hi
    rw [ho] at hi
    simp only [if_true] at hi
    split at hi
    · cases hi
    · injection hi with hi
      rw [← hi] at hf
      exact hfirst _ _ _ _ hf
  · cases ho : (Iterations.params a now b).openLoop with
    | false =>
      refine .inl ⟨rfl, Iterations.closed_begin ho h2 hi, Iterations.window_begin ho hi, ?_, h1⟩
      unfold Iterations.begin at hi
      rw [ho] at hi
      simp only [Bool.false_eq_true, if_false] at hi
      split at hi
      · cases hi
      · injection hi with hi
        rw [← hi]
        exact Int.le_refl _
    | true => exact .inr ⟨rfl, Iterations.open_begin ho h3 hi⟩

end Distbench.Loops
