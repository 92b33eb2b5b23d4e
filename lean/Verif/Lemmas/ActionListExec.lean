import Verif.Lemmas.ActionListTables

/-! Executable schedules of an action list, to exhibit reachable states. -/

namespace Distbench.ActionList
open Tables Spec

/-- The choices left open by the transition system. -/
inductive Cmd where
  | visit (delay : Int)
  | scanned
  | wake
  | timeout
  | resume (now : Int)
  | cancel
  | drain
  | exit
  | callback (i : Nat)
  | finish (i : Nat)
  | activity (i : Nat)
  | cancelTraffic

/-- The state after one choice, if it is possible. -/
def exec1 (c : Ctx) (s : State) : Cmd → Option State
  | .visit delay =>
    match s.phase with
    | .scan i => if i < c.size then some (advance i (visit c delay i s)) else none
    | _ => none
  | .scanned =>
    if s.phase = .scan c.size then
      some { s with phase := if ∀ i < c.size, (s.acts i).finished = true then .exit else .wait }
    else none
  | .wake => if s.phase = .wait ∧ ready s then some { handle s with phase := .checkCancel } else none
  | .timeout => if s.phase = .wait ∧ ¬ ready s then some { s with phase := .checkCancel } else none
  | .resume now =>
    if s.phase = .checkCancel ∧ s.canceled = false then some { s with phase := .scan 0, now := now }
    else none
  | .cancel =>
    if s.phase = .checkCancel ∧ s.canceled = true then
      some { cancelActivities c s with phase := .drain } else none
  | .drain =>
    if s.phase = .drain ∧ ready s then
      some { handle s with phase :=
        if ∀ i < c.size, (s.acts i).started = true → ((handle s).acts i).finished = true
        then .exit else .drain }
    else none
  | .exit => if s.phase = .exit then some (respondAndFree s) else none
  | .callback i =>
    if i < c.size ∧ (s.acts i).started = true ∧ (s.acts i).stuck = false ∧
        (s.acts i).called = false ∧ c.activityAt i = false then some (ActionList.callback c i s) else none
  | .finish i =>
    if i < c.size ∧ (s.acts i).called = true ∧ (s.acts i).closed = false then
      some (finishAction i s) else none
  | .activity i =>
    match s.phase with
    | .scan _ =>
      if i < c.size ∧ (s.acts i).started = true ∧ (s.acts i).stuck = false ∧
          (s.acts i).called = false ∧ c.activityAt i = true then
        some (finishAction i (ActionList.callback c i s)) else none
    | _ => none
  | .cancelTraffic => some { s with canceled := true }

/-- The state after a schedule. -/
def exec (c : Ctx) : List Cmd → State → Option State
  | [], s => some s
  | x :: rest, s => (exec1 c s x).bind (exec c rest)

theorem exec1_step {c : Ctx} {s s' : State} {x : Cmd} (h : exec1 c s x = some s') : Step c s s' := by
  cases x with
  | visit delay =>
    simp only [exec1] at h
    split at h
    · rename_i i hp
      split at h
      · injection h with h
        subst h
        exact .main (.visit i delay hp ‹_›)
      · simp at h
    · simp at h
  | scanned =>
    simp only [exec1] at h
    split at h
    · injection h with h
      subst h
      exact .main (.scanned ‹_›)
    · simp at h
  | wake =>
    simp only [exec1] at h
    split at h
    · rename_i hh
      injection h with h
      subst h
      exact .main (.wake hh.1 hh.2)
    · simp at h
  | timeout =>
    simp only [exec1] at h
    split at h
    · rename_i hh
      injection h with h
      subst h
      exact .main (.timeout hh.1 hh.2)
    · simp at h
  | resume now =>
    simp only [exec1] at h
    split at h
    · rename_i hh
      injection h with h
      subst h
      exact .main (.resume now hh.1 hh.2)
    · simp at h
  | cancel =>
    simp only [exec1] at h
    split at h
    · rename_i hh
      injection h with h
      subst h
      exact .main (.cancel hh.1 hh.2)
    · simp at h
  | drain =>
    simp only [exec1] at h
    split at h
    · rename_i hh
      injection h with h
      subst h
      exact .main (.drain hh.1 hh.2)
    · simp at h
  | exit =>
    simp only [exec1] at h
    split at h
    · injection h with h
      subst h
      exact .main (.exit ‹_›)
    · simp at h
  | callback i =>
    simp only [exec1] at h
    split at h
    · rename_i hh
      injection h with h
      subst h
      exact .env (.callback i hh.1 hh.2.1 hh.2.2.1 hh.2.2.2.1 hh.2.2.2.2)
    · simp at h
  | finish i =>
    simp only [exec1] at h
    split at h
    · rename_i hh
      injection h with h
      subst h
      exact .env (.finish i hh.1 hh.2.1 hh.2.2)
    · simp at h
  | activity i =>
    simp only [exec1] at h
    split at h
    · rename_i k hp
      split at h
      · rename_i hh
        injection h with h
        subst h
        exact .env (.activity i k hp hh.1 hh.2.1 hh.2.2.1 hh.2.2.2.1 hh.2.2.2.2)
      · simp at h
    · simp at h
  | cancelTraffic =>
    simp only [exec1] at h
    injection h with h
    subst h
    exact .env .cancel

theorem exec_reachable {c : Ctx} {l : List Cmd} {s s' : State} (hr : Reachable c s)
    (h : exec c l s = some s') : Reachable c s' := by
  induction l generalizing s with
  | nil => simp only [exec, Option.some.injEq] at h; subst h; exact hr
  | cons x rest ih =>
    simp only [exec, Option.bind_eq_some_iff] at h
    obtain ⟨s1, h1, h2⟩ := h
    exact ih (.step hr (exec1_step h1)) h2

theorem exec_append (c : Ctx) (l1 l2 : List Cmd) (s : State) :
    exec c (l1 ++ l2) s = (exec c l1 s).bind (exec c l2) := by
  induction l1 generalizing s with
  | nil => rfl
  | cons x rest ih =>
    simp only [List.cons_append, exec]
    cases exec1 c s x with
    | none => rfl
    | some s1 => simp only [Option.bind_some]; exact ih s1

theorem exec_take {c : Ctx} {l : List Cmd} {s : State} (h : (exec c l s).isSome) (n : Nat)
    (hn : n ≤ l.length) : ∃ s', exec c (l.take n) s = some s' ∧ (l.take n).length = n := by
  rw [← List.take_append_drop n l, exec_append] at h
  cases hx : exec c (l.take n) s with
  | none => rw [hx] at h; simp at h
  | some s' => exact ⟨s', rfl, by rw [List.length_take]; omega⟩

/-- The action list at position `k` of an accepted configuration. -/
def loadList (e : Env) (cfg : Tables.Config) (svc : Str) (k : Nat) (hasPeers : Int → Bool)
    (predicates : List Str) : Option Ctx :=
  match initTables e cfg svc with
  | .ok t => t.actionLists[k]?.map fun entry =>
      { entry := entry, rpcTable := t.rpcTable, hasPeers := hasPeers, predicates := predicates }
  | _ => none

theorem loadList_loaded {e : Env} {cfg : Tables.Config} {svc : Str} {k : Nat}
    {hasPeers : Int → Bool} {predicates : List Str} {c : Ctx}
    (h : loadList e cfg svc k hasPeers predicates = some c) : Loaded cfg svc c := by
  unfold loadList at h
  split at h
  · rename_i t ht
    rw [Option.map_eq_some_iff] at h
    obtain ⟨entry, h1, rfl⟩ := h
    exact ⟨e, t, k, ht, h1, rfl⟩
  · simp at h

/-- Something that holds of the state a schedule of a loaded list ends in. -/
theorem exists_reachable {e : Env} {cfg : Tables.Config} {svc : Str} {k : Nat}
    {hasPeers : Int → Bool} {predicates : List Str} (l : List Cmd) (now : Int) (P : Ctx → State → Bool)
    (h : ((loadList e cfg svc k hasPeers predicates).bind fun c =>
      (exec c l (init now false)).map (P c)) = some true) :
    ∃ c s, Loaded cfg svc c ∧ c.hasPeers = hasPeers ∧ c.predicates = predicates ∧
      Reachable c s ∧ P c s = true := by
  cases hc : loadList e cfg svc k hasPeers predicates with
  | none => rw [hc] at h; simp at h
  | some c =>
    rw [hc] at h
    simp only [Option.bind_some, Option.map_eq_some_iff] at h
    obtain ⟨s, h1, h2⟩ := h
    refine ⟨c, s, loadList_loaded hc, ?_, ?_, exec_reachable (.init now false) h1, h2⟩
    · unfold loadList at hc
      split at hc
      · rw [Option.map_eq_some_iff] at hc
        obtain ⟨entry, -, rfl⟩ := hc
        rfl
      · simp at hc
    · unfold loadList at hc
      split at hc
      · rw [Option.map_eq_some_iff] at hc
        obtain ⟨entry, -, rfl⟩ := hc
        rfl
      · simp at hc

end Distbench.ActionList
