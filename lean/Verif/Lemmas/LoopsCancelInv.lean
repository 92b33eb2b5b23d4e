import Verif.Lemmas.LoopsCancel
import Verif.Lemmas.LoopsSim

/-! Whole tests that may be cancelled: the invariants. -/

namespace Distbench.Loops
open Tables Services Whole Spec

/-- What stays the same of a run. -/
def SameJob (k k' : Job) : Prop :=
  k'.engine = k.engine ∧ k'.list = k.list ∧ k'.parent = k.parent ∧ k'.entry = k.entry

/-- An RPC was made by an action with that RPC. -/
def MadeBy (w : Test) (s : State) (r : Traffic.Call) : Prop :=
  ∃ k y f targets, s.jobs[r.job]? = some k ∧ k.entry.listActions[r.action]? = some y ∧
    toWork (fun _ => 0) y = .rpc r.rpc f ∧ Picks w k.engine y targets ∧ r.target ∈ targets

/-- A run began as the work of an iteration. -/
def NestedIn (s : State) (i : Nat) (k : Job) (j a : Nat) : Prop :=
  j < i ∧ ∃ k0 y, s.jobs[j]? = some k0 ∧ k0.engine = k.engine ∧ k0.entry.listActions[a]? = some y ∧
    toWork (fun _ => 0) y = .list k.list

/-- A run began to handle an RPC. -/
def ServedFor (w : Test) (s : State) (i : Nat) (k : Job) (c : Nat) : Prop :=
  ∃ r, s.calls[c]? = some r ∧ r.job < i ∧ k.engine = r.target ∧
    handlerOf (tablesOf w r.target) r.rpc = some k.list

/-- Where runs and RPCs come from. -/
structure Placed (w : Test) (s : State) : Prop where
  made : ∀ (c : Nat) r, s.calls[c]? = some r → MadeBy w s r
  nested : ∀ (i : Nat) k, s.jobs[i]? = some k → ∀ j a n, k.parent = .action j a n → NestedIn s i k j a
  roots : ∀ (i : Nat) k, s.jobs[i]? = some k → k.parent = .root → (k.engine, k.list) ∈ roots w.cfg
  served : ∀ (i : Nat) k, s.jobs[i]? = some k → ∀ c, k.parent = .call c → ServedFor w s i k c

/-- What a step does to what stays the same. -/
structure Change (w : Test) (s s' : State) : Prop where
  job : ∀ (i : Nat) k, s.jobs[i]? = some k → ∃ k', s'.jobs[i]? = some k' ∧ SameJob k k'
  back : ∀ (i : Nat) k', s'.jobs[i]? = some k' → (∃ k, s.jobs[i]? = some k ∧ SameJob k k') ∨
    (∃ j a n, k'.parent = .action j a n ∧ NestedIn s' i k' j a) ∨ ∃ c, k'.parent = .call c ∧ ServedFor w s' i k' c
  call : ∀ (c : Nat) r, s.calls[c]? = some r → ∃ st, s'.calls[c]? = some { r with stage := st }
  made : ∀ (c : Nat) r', s'.calls[c]? = some r' → (∃ r, s.calls[c]? = some r ∧ r' = { r with stage := r'.stage }) ∨
    MadeBy w s' r'

/-- One of the four kinds of moves. -/
inductive Move (w : Test) (s s' : State) : Prop where
  | turn {j k k' xs rs} : Turn w s s' j k k' xs rs → Move w s s'
  | pass {c r st} : Pass w s s' c r st → Move w s s'
  | serve {c r l k'} : Serve w s s' c r l k' → Move w s s'
  | told : Told s s' → Move w s s'

variable {w : Test} {s s' : State} {j a c l : Nat} {k k' : Job} {xs : List Job} {rs : List Traffic.Call}
  {r : Traffic.Call} {st : Traffic.Stage}

theorem SameJob.refl (k : Job) : SameJob k k := ⟨rfl, rfl, rfl, rfl⟩

theorem placed_change (hP : Placed w s) (h : Change w s s') : Placed w s' := by
  have made : ∀ r r', MadeBy w s r → r' = { r with stage := r'.stage } → MadeBy w s' r' := by
    intro r r' ⟨k, y, f, targets, h1, h2, h3, h4, h5⟩ he
    obtain ⟨k', g1, g2, g3, g4, g5⟩ := h.job _ _ h1
    rw [he]
    exact ⟨k', y, f, targets, g1, by rw [g5]; exact h2, h3, by rw [g2]; exact h4, h5⟩
  refine ⟨?_, ?_, ?_, ?_⟩
  · intro c r' hc
    rcases h.made c r' hc with ⟨r, h1, h2⟩ | h1
    · exact made r r' (hP.made c r h1) h2
    · exact h1
  · intro i k' hi j a n hp
    rcases h.back i k' hi with ⟨k, h1, h2, h3, h4, h5⟩ | ⟨j', a', n', h1, h2⟩ | ⟨c, h1, -⟩
    · obtain ⟨g1, k0, y, g2, g3, g4, g5⟩ := hP.nested i k h1 j a n (by rw [← h4]; exact hp)
      obtain ⟨k0', f1, f2, f3, f4, f5⟩ := h.job _ _ g2
      exact ⟨g1, k0', y, f1, by rw [f2, g3, h2], by rw [f5]; exact g4, by rw [h3]; exact g5⟩
    · rw [hp] at h1
      cases h1
      exact h2
    · rw [hp] at h1
      cases h1
  · intro i k' hi hp
    rcases h.back i k' hi with ⟨k, h1, h2, h3, h4, h5⟩ | ⟨j', a', n', h1, h2⟩ | ⟨c, h1, -⟩
    · rw [h2, h3]
      exact hP.roots i k h1 (by rw [← h4]; exact hp)
    · rw [hp] at h1
      cases h1
    · rw [hp] at h1
      cases h1
  · intro i k' hi c hp
    rcases h.back i k' hi with ⟨k, h1, h2, h3, h4, h5⟩ | ⟨j', a', n', h1, h2⟩ | ⟨c', h1, g1⟩
    · obtain ⟨r, g1, g2, g3, g4⟩ := hP.served i k h1 c (by rw [← h4]; exact hp)
      obtain ⟨st, hst⟩ := h.call c r g1
      exact ⟨_, hst, g2, by rw [h2]; exact g3, by rw [h3]; exact g4⟩
    · rw [hp] at h1
      cases h1
    · rw [hp] at h1
      cases h1
      exact g1

/-! ### The state after each kind of step -/

theorem Turn.get (h : Turn w s s' j k k' xs rs) {i : Nat} {x : Job} (hx : s'.jobs[i]? = some x) :
    (i = j ∧ x = k') ∨ (i ≠ j ∧ s.jobs[i]? = some x) ∨ (i = s.jobs.length ∧ x ∈ xs) := by
  rw [h.jobs] at hx
  by_cases hlt : i < s.jobs.length
  · rw [List.getElem?_append_left (by simpa using hlt)] at hx
    by_cases hij : i = j
    · left
      subst hij
      rw [List.getElem?_set_self hlt] at hx
      exact ⟨rfl, (Option.some.inj hx).symm⟩
    · rw [List.getElem?_set_ne (Ne.symm hij)] at hx
      exact .inr (.inl ⟨hij, hx⟩)
  · rw [List.getElem?_append_right (by simp; omega)] at hx
    have hm := List.mem_of_getElem? hx
    refine .inr (.inr ⟨?_, hm⟩)
    rw [(h.ext x hm).1] at hx
    have := (List.getElem?_eq_some_iff.1 hx).1
    simp at this
    omega

theorem Turn.lt (h : Turn w s s' j k k' xs rs) : j < s.jobs.length := (List.getElem?_eq_some_iff.1 h.old).1

theorem Turn.put (h : Turn w s s' j k k' xs rs) {i : Nat} {x : Job} (hx : s.jobs[i]? = some x) :
    s'.jobs[i]? = some (if i = j then k' else x) := by
  have hlt := (List.getElem?_eq_some_iff.1 hx).1
  rw [h.jobs, List.getElem?_append_left (by simpa using hlt)]
  by_cases hij : i = j
  · subst hij
    rw [if_pos rfl, List.getElem?_set_self hlt]
  · rw [if_neg hij, List.getElem?_set_ne (Ne.symm hij), hx]

theorem Turn.same (h : Turn w s s' j k k' xs rs) : SameJob k k' := ⟨h.engine, h.list, h.parent, h.entry⟩

/-- The RPC that a run is for is answered when the run sends the response. -/
theorem respond_get {m m' : ActionList.State} {p : Traffic.Parent} {calls : List Traffic.Call} {c : Nat}
    {r : Traffic.Call} (hc : calls[c]? = some r) : (respond m m' p calls)[c]? =
      some (if responses m.log < responses m'.log ∧ p = .call c then { r with stage := .answered } else r) := by
  unfold respond
  split
  · rename_i hr
    cases p with
    | root => simp [Traffic.answer, hc]
    | action j a n => simp [Traffic.answer, hc]
    | call c' =>
      simp only [Traffic.answer, List.getElem?_modify, hc, Option.map_eq_map, Option.map_some]
      by_cases hcc : c' = c
      · subst hcc
        simp [hr]
      · rw [if_neg (by simp [hcc])]
        simp [hcc]
  · rename_i hr
    rw [if_neg (fun hh => hr hh.1), hc]

theorem respond_length (m m' : ActionList.State) (p : Traffic.Parent) (calls : List Traffic.Call) :
    (respond m m' p calls).length = calls.length := by
  unfold respond
  split
  · cases p <;> simp [Traffic.answer]
  · rfl

theorem Turn.callPut (h : Turn w s s' j k k' xs rs) {c : Nat} {r : Traffic.Call} (hc : s.calls[c]? = some r) :
    s'.calls[c]? = some (if responses k.main.log < responses k'.main.log ∧ k.parent = .call c
      then { r with stage := .answered } else r) := by
  have hlt := (List.getElem?_eq_some_iff.1 hc).1
  rw [h.calls, List.getElem?_append_left (by rw [respond_length]; exact hlt), respond_get hc]

theorem Turn.callGet (h : Turn w s s' j k k' xs rs) {c : Nat} {r' : Traffic.Call} (hc : s'.calls[c]? = some r') :
    (∃ r, s.calls[c]? = some r ∧ r' = if responses k.main.log < responses k'.main.log ∧ k.parent = .call c
      then { r with stage := .answered } else r) ∨ (s.calls[c]? = none ∧ r' ∈ rs) := by
  cases hr : s.calls[c]? with
  | some r =>
    rw [h.callPut hr] at hc
    exact .inl ⟨r, rfl, (Option.some.inj hc).symm⟩
  | none =>
    right
    rw [h.calls, List.getElem?_append_right (by
      rw [respond_length]; exact List.getElem?_eq_none_iff.1 hr)] at hc
    exact ⟨rfl, List.mem_of_getElem? hc⟩

theorem Pass.put (h : Pass w s s' c r st) {c' : Nat} {r' : Traffic.Call} (hc : s.calls[c']? = some r') :
    s'.calls[c']? = some (if c' = c then { r with stage := st } else r') := by
  have hlt := (List.getElem?_eq_some_iff.1 hc).1
  rw [h.calls]
  by_cases hcc : c' = c
  · subst hcc
    rw [if_pos rfl, List.getElem?_set_self hlt]
  · rw [if_neg hcc, List.getElem?_set_ne (Ne.symm hcc), hc]

theorem set_get {α : Type} {l : List α} {i i' : Nat} {x y : α} (h : (l.set i x)[i']? = some y) :
    (i' = i ∧ y = x) ∨ (i' ≠ i ∧ l[i']? = some y) := by
  by_cases hi : i' = i
  · subst hi
    have hlt : i' < l.length := by
      have := (List.getElem?_eq_some_iff.1 h).1
      simpa using this
    rw [List.getElem?_set_self hlt] at h
    exact .inl ⟨rfl, (Option.some.inj h).symm⟩
  · rw [List.getElem?_set_ne (Ne.symm hi)] at h
    exact .inr ⟨hi, h⟩

theorem add_get {α : Type} {l : List α} {i : Nat} {x y : α} (h : (l ++ [x])[i]? = some y) :
    l[i]? = some y ∨ (i = l.length ∧ y = x) := by
  by_cases hlt : i < l.length
  · rw [List.getElem?_append_left hlt] at h
    exact .inl h
  · rw [List.getElem?_append_right (by omega)] at h
    have hm := List.mem_of_getElem? h
    have h2 := (List.getElem?_eq_some_iff.1 h).1
    simp at hm h2
    exact .inr ⟨by omega, hm⟩

theorem keep_get {α : Type} {l m : List α} {i : Nat} {y : α} (h : l[i]? = some y) : (l ++ m)[i]? = some y := by
  rw [List.getElem?_append_left (List.getElem?_eq_some_iff.1 h).1, h]

theorem Told.put (h : Told s s') {i : Nat} {x : Job} (hx : s.jobs[i]? = some x) :
    s'.jobs[i]? = some x ∨ s'.jobs[i]? = some (LoopsCancel.tell x) := by
  obtain ⟨-, f, hf⟩ := h
  rw [hf, List.getElem?_map, hx]
  cases hfx : f x <;> simp [hfx]

theorem Told.get (h : Told s s') {i : Nat} {x : Job} (hx : s'.jobs[i]? = some x) :
    ∃ y, s.jobs[i]? = some y ∧ (x = y ∨ x = LoopsCancel.tell y) := by
  obtain ⟨-, f, hf⟩ := h
  rw [hf, List.getElem?_map] at hx
  obtain ⟨y, h1, h2⟩ := Option.map_eq_some_iff.1 hx
  refine ⟨y, h1, ?_⟩
  cases hfy : f y
  · rw [hfy] at h2; exact .inl h2.symm
  · rw [hfy] at h2; exact .inr h2.symm

theorem tell_same (k : Job) : SameJob k (LoopsCancel.tell k) := ⟨rfl, rfl, rfl, rfl⟩

theorem opens_same {eng l : Nat} {p : Traffic.Parent} (h : Opens w eng l p k) :
    k.engine = eng ∧ k.list = l ∧ k.parent = p ∧ k.main.phase ≠ .done ∧ responses k.main.log = 0 := by
  obtain ⟨entry, draw, now, warmup, h1, rfl⟩ := h
  exact ⟨rfl, rfl, rfl, by simp [ActionList.init], by simp [ActionList.init, responses]⟩

/-! ### Where runs and RPCs come from -/

theorem change_turn (h : Turn w s s' j k k' xs rs) : Change w s s' := by
  have hj' : s'.jobs[j]? = some k' := by
    have := h.put h.old
    rw [if_pos rfl] at this
    exact this
  refine ⟨?_, ?_, ?_, ?_⟩
  · intro i x hx
    refine ⟨_, h.put hx, ?_⟩
    split
    · rename_i hij
      subst hij
      rw [h.old] at hx
      cases hx
      exact h.same
    · exact SameJob.refl x
  · intro i x hx
    rcases h.get hx with ⟨rfl, rfl⟩ | ⟨hij, h1⟩ | ⟨rfl, h1⟩
    · exact .inl ⟨k, h.old, h.same⟩
    · exact .inl ⟨x, h1, SameJob.refl x⟩
    · obtain ⟨-, a, n, l, y, h2, h3, h4, -⟩ := h.ext x h1
      obtain ⟨g1, g2, g3, -⟩ := opens_same h2
      exact .inr (.inl ⟨j, a, n, g3, h.lt, k', y, hj', by rw [h.engine, g1], by rw [h.entry]; exact h3,
        by rw [g2]; exact h4⟩)
  · intro c r hc
    rw [h.callPut hc]
    split
    · exact ⟨_, rfl⟩
    · exact ⟨r.stage, rfl⟩
  · intro c r' hc
    rcases h.callGet hc with ⟨r, h1, h2⟩ | ⟨-, h1⟩
    · left
      refine ⟨r, h1, ?_⟩
      rw [h2]
      split <;> rfl
    · obtain ⟨h2, -, y, f, targets, h3, h4, h5, h6, -⟩ := h.new r' h1
      exact .inr ⟨k', y, f, targets, by rw [h2]; exact hj', by rw [h.entry]; exact h3, h4,
        by rw [h.engine]; exact h5, h6⟩

theorem change_pass (h : Pass w s s' c r st) : Change w s s' := by
  refine ⟨fun i x hx => ⟨x, by rw [h.jobs]; exact hx, SameJob.refl x⟩,
    fun i x hx => .inl ⟨x, by rw [← h.jobs]; exact hx, SameJob.refl x⟩, ?_, ?_⟩
  · intro c' r' hc
    rw [h.put hc]
    split
    · rename_i hcc
      subst hcc
      rw [h.old] at hc
      cases hc
      exact ⟨st, rfl⟩
    · exact ⟨r'.stage, rfl⟩
  · intro c' r' hc
    rw [h.calls] at hc
    rcases set_get hc with ⟨rfl, rfl⟩ | ⟨-, h1⟩
    · exact .inl ⟨r, h.old, rfl⟩
    · exact .inl ⟨r', h1, rfl⟩

theorem change_serve (hP : Placed w s) (h : Serve w s s' c r l k') : Change w s s' := by
  refine ⟨fun i x hx => ⟨x, by rw [h.jobs]; exact keep_get hx, SameJob.refl x⟩, ?_, ?_, ?_⟩
  · intro i x hx
    rw [h.jobs] at hx
    rcases add_get hx with h1 | ⟨rfl, rfl⟩
    · exact .inl ⟨x, h1, SameJob.refl x⟩
    · obtain ⟨g1, g2, g3, -⟩ := opens_same h.opens
      obtain ⟨k, -, -, -, h1, -⟩ := hP.made c r h.old
      refine .inr (.inr ⟨c, g3, { r with stage := .running }, ?_, (List.getElem?_eq_some_iff.1 h1).1, g1,
        by rw [g2]; exact h.handler⟩)
      rw [h.calls, List.getElem?_set_self (List.getElem?_eq_some_iff.1 h.old).1]
  · intro c' r' hc
    rw [h.calls]
    by_cases hcc : c' = c
    · subst hcc
      rw [h.old] at hc
      cases hc
      exact ⟨_, List.getElem?_set_self (List.getElem?_eq_some_iff.1 h.old).1⟩
    · exact ⟨r'.stage, by rw [List.getElem?_set_ne (Ne.symm hcc), hc]⟩
  · intro c' r' hc
    rw [h.calls] at hc
    rcases set_get hc with ⟨rfl, rfl⟩ | ⟨-, h1⟩
    · exact .inl ⟨r, h.old, rfl⟩
    · exact .inl ⟨r', h1, rfl⟩

theorem change_told (h : Told s s') : Change w s s' := by
  refine ⟨?_, ?_, fun c r hc => ⟨r.stage, by rw [h.1]; exact hc⟩,
    fun c r hc => .inl ⟨r, by rw [← h.1]; exact hc, rfl⟩⟩
  · intro i x hx
    rcases h.put hx with h1 | h1
    · exact ⟨x, h1, SameJob.refl x⟩
    · exact ⟨_, h1, tell_same x⟩
  · intro i x hx
    obtain ⟨y, h1, rfl | rfl⟩ := h.get hx
    · exact .inl ⟨x, h1, SameJob.refl x⟩
    · exact .inl ⟨y, h1, tell_same y⟩

theorem placed_start (h : Start w s) : Placed w s := by
  obtain ⟨h1, h2, h3⟩ := h
  have hroot : ∀ (i : Nat) k, s.jobs[i]? = some k → k.parent = .root ∧ (k.engine, k.list) ∈ Whole.roots w.cfg := by
    intro i k hi
    have hlt : i < (Whole.roots w.cfg).length := by rw [← h2]; exact (List.getElem?_eq_some_iff.1 hi).1
    obtain ⟨k', g1, g2⟩ := h3 i _ (List.getElem?_eq_getElem hlt)
    rw [hi] at g1
    cases g1
    obtain ⟨e1, e2, e3, -⟩ := opens_same g2
    refine ⟨e3, ?_⟩
    rw [e1, e2]
    exact List.getElem_mem hlt
  refine ⟨?_, ?_, fun i k hi _ => (hroot i k hi).2, ?_⟩
  · intro c r hc
    rw [h1] at hc
    simp at hc
  · intro i k hi j a n hp
    rw [(hroot i k hi).1] at hp
    cases hp
  · intro i k hi c hp
    rw [(hroot i k hi).1] at hp
    cases hp

/-! ### What is under way -/

structure Active (w : Test) (s : State) : Prop where
  fine : ∀ (i : Nat) k, s.jobs[i]? = some k → Fine w k
  calls : ∀ (c : Nat) r, s.calls[c]? = some r → Owned s r.job r.action r.iter (r.stage = .completed)
  parents : ∀ (i : Nat) k, s.jobs[i]? = some k → ∀ j a n, k.parent = .action j a n →
    Owned s j a n (k.main.phase = .done)
  stage : ∀ (i : Nat) k, s.jobs[i]? = some k → ∀ (c : Nat) r, k.parent = .call c → s.calls[c]? = some r →
    2 ≤ stageNumber r.stage ∧ (r.stage = .running ↔ responses k.main.log = 0)
  unique : ∀ (i i' : Nat) (k k' : Job), s.jobs[i]? = some k → s.jobs[i']? = some k' → ∀ c, k.parent = .call c →
    k'.parent = .call c → i = i'
  running : ∀ (c : Nat) r, s.calls[c]? = some r → r.stage = .running →
    ∃ (i : Nat) (k : Job), s.jobs[i]? = some k ∧ k.parent = .call c
  queued : ∀ (c : Nat) r, s.calls[c]? = some r → r.stage = .queued →
    (handlerOf (tablesOf w r.target) r.rpc).isSome = true

theorem logAt_get {i : Nat} {x : Job} (h : s.jobs[i]? = some x) (b : Nat) : logAt s i b = logOf x b := by
  unfold logAt
  rw [h]

theorem owned_job {i b n : Nat} {p : Prop} (h : Owned s i b n p) : ∃ x, s.jobs[i]? = some x := by
  cases hx : s.jobs[i]? with
  | some x => exact ⟨x, rfl⟩
  | none =>
    have := h.1
    unfold logAt at this
    rw [hx] at this
    simp [starts] at this

theorem busy_call {c : Nat} {r : Traffic.Call} (hc : s.calls[c]? = some r)
    (h : busy s r.job r.action r.iter = false) : r.stage = .completed := by
  apply Classical.byContradiction
  intro hne
  unfold busy at h
  rw [Bool.or_eq_false_iff] at h
  have := List.any_eq_false.1 h.1 r (List.mem_of_getElem? hc)
  simp [hne] at this

theorem busy_parent {i j a n : Nat} {x : Job} (hx : s.jobs[i]? = some x) (hp : x.parent = .action j a n)
    (h : busy s j a n = false) : x.main.phase = .done := by
  apply Classical.byContradiction
  intro hne
  unfold busy at h
  rw [Bool.or_eq_false_iff] at h
  have := List.any_eq_false.1 h.2 x (List.mem_of_getElem? hx)
  simp [hne, hp] at this

/-- What an iteration owns after a turn. -/
theorem owned_turn (h : Turn w s s' j k k' xs rs) {i b n : Nat} {p q : Prop} (ho : Owned s i b n p)
    (hpq : p → q) (hb : busy s i b n = false → q) : Owned s' i b n q := by
  obtain ⟨x, hx⟩ := owned_job ho
  have hx' := h.put hx
  unfold Owned at ho ⊢
  rw [logAt_get hx] at ho
  rw [logAt_get hx']
  by_cases hij : i = j
  · subst hij
    rw [h.old] at hx
    cases hx
    rw [if_pos rfl]
    obtain ⟨h1, h2⟩ := h.logs b n ho.1
    refine ⟨h1, fun hq => ?_⟩
    rcases h2 (ho.2 fun hp => hq (hpq hp)) with h3 | h3
    · exact h3
    · exact absurd (hb h3) hq
  · rw [if_neg hij]
    exact ⟨ho.1, fun hq => ho.2 fun hp => hq (hpq hp)⟩

theorem active_turn (hP : Placed w s) (hA : Active w s) (h : Turn w s s' j k k' xs rs) : Active w s' := by
  have hj' : s'.jobs[j]? = some k' := by
    have := h.put h.old
    rw [if_pos rfl] at this
    exact this
  -- the RPC that the run is for
  have hcall : ∀ (c : Nat) r, s.calls[c]? = some r →
      (responses k.main.log < responses k'.main.log ∧ k.parent = .call c) → r.stage = .running := by
    intro c r hc ⟨h1, h2⟩
    rw [(hA.stage j k h.old c r h2 hc).2]
    rcases h.resp with h3 | h3 <;> omega
  refine ⟨?_, ?_, ?_, ?_, ?_, ?_, ?_⟩
  · intro i x hx
    rcases h.get hx with ⟨rfl, rfl⟩ | ⟨hij, h1⟩ | ⟨rfl, h1⟩
    · exact h.fine
    · exact hA.fine i x h1
    · obtain ⟨-, a, n, l, y, h2, -⟩ := h.ext x h1
      exact opens_fine h2
  · intro c r' hc
    rcases h.callGet hc with ⟨r, h1, h2⟩ | ⟨-, h1⟩
    · have e1 : r'.job = r.job ∧ r'.action = r.action ∧ r'.iter = r.iter := by
        rw [h2]; split <;> exact ⟨rfl, rfl, rfl⟩
      have e2 : r.stage = .completed → r'.stage = .completed := by
        intro hst
        rw [h2]
        split
        · rename_i hh
          rw [hcall c r h1 hh] at hst
          cases hst
        · exact hst
      rw [e1.1, e1.2.1, e1.2.2]
      exact owned_turn h (hA.calls c r h1) e2 fun hb => e2 (busy_call h1 hb)
    · obtain ⟨h2, h3, y, f, targets, -, -, -, -, h4⟩ := h.new r' h1
      unfold Owned
      rw [h2, logAt_get hj']
      exact ⟨by omega, fun _ => h4⟩
  · intro i x hx j' a n hp
    rcases h.get hx with ⟨rfl, rfl⟩ | ⟨hij, h1⟩ | ⟨rfl, h1⟩
    · rw [h.parent] at hp
      exact owned_turn h (hA.parents i k h.old j' a n hp) h.stay fun hb => h.stay (busy_parent h.old hp hb)
    · exact owned_turn h (hA.parents i x h1 j' a n hp) id fun hb => busy_parent h1 hp hb
    · obtain ⟨-, a', n', l, y, h2, -, -, h3⟩ := h.ext x h1
      rw [(opens_same h2).2.2.1] at hp
      cases hp
      unfold Owned
      rw [logAt_get hj']
      exact ⟨by omega, fun _ => h3⟩
  · intro i x hx c r' hp hc
    have hold : ∀ r, s.calls[c]? = some r → r' = if responses k.main.log < responses k'.main.log ∧
        k.parent = .call c then { r with stage := .answered } else r := by
      intro r hr
      rw [h.callPut hr] at hc
      exact (Option.some.inj hc).symm
    rcases h.get hx with ⟨rfl, rfl⟩ | ⟨hij, h1⟩ | ⟨rfl, h1⟩
    · rw [h.parent] at hp
      obtain ⟨r, g1, -⟩ := hP.served i k h.old c hp
      obtain ⟨g2, g3⟩ := hA.stage i k h.old c r hp g1
      rw [hold r g1]
      rcases h.resp with h3 | ⟨h3, h4⟩
      · rw [if_neg (fun hh => by omega), h3]
        exact ⟨g2, g3⟩
      · rw [if_pos ⟨by omega, hp⟩]
        refine ⟨by simp [stageNumber], ?_⟩
        rw [h4]
        simp
    · obtain ⟨r, g1, -⟩ := hP.served i x h1 c hp
      rw [hold r g1, if_neg (fun hh => hij (hA.unique i j x k h1 h.old c hp hh.2))]
      exact hA.stage i x h1 c r hp g1
    · obtain ⟨-, a', n', l, y, h2, -⟩ := h.ext x h1
      rw [(opens_same h2).2.2.1] at hp
      cases hp
  · intro i i' x x' hx hx' c hp hp'
    have hback : ∀ (i : Nat) x, s'.jobs[i]? = some x → x.parent = .call c →
        ∃ y, s.jobs[i]? = some y ∧ y.parent = .call c := by
      intro i x hx hp
      rcases h.get hx with ⟨rfl, rfl⟩ | ⟨hij, h1⟩ | ⟨rfl, h1⟩
      · exact ⟨k, h.old, by rw [← h.parent]; exact hp⟩
      · exact ⟨x, h1, hp⟩
      · obtain ⟨-, a', n', l, y, h2, -⟩ := h.ext x h1
        rw [(opens_same h2).2.2.1] at hp
        cases hp
    obtain ⟨y, h1, h2⟩ := hback i x hx hp
    obtain ⟨y', h3, h4⟩ := hback i' x' hx' hp'
    exact hA.unique i i' y y' h1 h3 c h2 h4
  · intro c r' hc hst
    rcases h.callGet hc with ⟨r, h1, h2⟩ | ⟨-, h1⟩
    · split at h2
      · rw [h2] at hst
        cases hst
      · rw [h2] at hst
        obtain ⟨i, x, g1, g2⟩ := hA.running c r h1 hst
        refine ⟨i, _, h.put g1, ?_⟩
        split
        · rename_i hij
          subst hij
          rw [h.old] at g1
          cases g1
          rw [h.parent]
          exact g2
        · exact g2
    · rw [(h.new r' h1).2.1] at hst
      cases hst
  · intro c r' hc hst
    rcases h.callGet hc with ⟨r, h1, h2⟩ | ⟨-, h1⟩
    · split at h2
      · rw [h2] at hst
        cases hst
      · rw [h2] at hst ⊢
        exact hA.queued c r h1 hst
    · rw [(h.new r' h1).2.1] at hst
      cases hst

theorem active_pass (hP : Placed w s) (hA : Active w s) (h : Pass w s s' c r st) : Active w s' := by
  have hlog : ∀ i b, logAt s' i b = logAt s i b := by
    intro i b
    unfold logAt
    rw [h.jobs]
  have hget : ∀ (c' : Nat) r', s'.calls[c']? = some r' →
      (c' = c ∧ r' = { r with stage := st }) ∨ (c' ≠ c ∧ s.calls[c']? = some r') := by
    intro c' r' hc
    rw [h.calls] at hc
    exact set_get hc
  refine ⟨by rw [h.jobs]; exact hA.fine, ?_, ?_, ?_, by rw [h.jobs]; exact hA.unique, ?_, ?_⟩
  · intro c' r' hc
    rcases hget c' r' hc with ⟨rfl, rfl⟩ | ⟨-, h1⟩
    · refine ((hA.calls c' r h.old).mono ?_).congr (hlog _ _)
      intro hst
      rcases h.how with ⟨h1, -⟩ | ⟨h1, -⟩ | ⟨h1, -⟩ <;> rw [h1] at hst <;> cases hst
    · exact (hA.calls c' r' h1).congr (hlog _ _)
  · intro i x hx j a n hp
    rw [h.jobs] at hx
    exact (hA.parents i x hx j a n hp).congr (hlog _ _)
  · intro i x hx c' r' hp hc
    rw [h.jobs] at hx
    rcases hget c' r' hc with ⟨rfl, rfl⟩ | ⟨-, h1⟩
    · obtain ⟨g1, g2⟩ := hA.stage i x hx c' r hp h.old
      rcases h.how with ⟨h1, -⟩ | ⟨h1, -⟩ | ⟨h1, h2⟩
      · rw [h1] at g1; simp [stageNumber] at g1
      · rw [h1] at g1; simp [stageNumber] at g1
      · subst h2
        refine ⟨by simp [stageNumber], ?_⟩
        rw [← g2, h1]
        simp
    · exact hA.stage i x hx c' r' hp h1
  · intro c' r' hc hst
    rw [h.jobs]
    rcases hget c' r' hc with ⟨rfl, rfl⟩ | ⟨-, h1⟩
    · rcases h.how with ⟨-, h1, -⟩ | ⟨-, h1⟩ | ⟨-, h1⟩ <;> rw [h1] at hst <;> cases hst
    · exact hA.running c' r' h1 hst
  · intro c' r' hc hst
    rcases hget c' r' hc with ⟨rfl, rfl⟩ | ⟨-, h1⟩
    · rcases h.how with ⟨-, h1, h2⟩ | ⟨-, h1⟩ | ⟨-, h1⟩
      · exact h2
      · rw [h1] at hst; cases hst
      · rw [h1] at hst; cases hst
    · exact hA.queued c' r' h1 hst

theorem active_serve (hP : Placed w s) (hA : Active w s) (h : Serve w s s' c r l k') : Active w s' := by
  obtain ⟨e1, e2, e3, e4, e5⟩ := opens_same h.opens
  have hlt := (List.getElem?_eq_some_iff.1 h.old).1
  have hnone : ∀ (i : Nat) x, s.jobs[i]? = some x → x.parent ≠ .call c := by
    intro i x hx hp
    have := (hA.stage i x hx c r hp h.old).1
    rw [h.stage] at this
    simp [stageNumber] at this
  have hcall : s'.calls[c]? = some { r with stage := .running } := by
    rw [h.calls, List.getElem?_set_self hlt]
  have hget : ∀ (c' : Nat) r', s'.calls[c']? = some r' →
      (c' = c ∧ r' = { r with stage := .running }) ∨ (c' ≠ c ∧ s.calls[c']? = some r') := by
    intro c' r' hc
    rw [h.calls] at hc
    exact set_get hc
  have hjob : ∀ (i : Nat) x, s'.jobs[i]? = some x → s.jobs[i]? = some x ∨ (i = s.jobs.length ∧ x = k') := by
    intro i x hx
    rw [h.jobs] at hx
    exact add_get hx
  have hown : ∀ i b n p, Owned s i b n p → Owned s' i b n p := by
    intro i b n p ho
    obtain ⟨x, hx⟩ := owned_job ho
    refine ho.congr ?_
    rw [logAt_get hx, logAt_get (by rw [h.jobs]; exact keep_get hx)]
  refine ⟨?_, ?_, ?_, ?_, ?_, ?_, ?_⟩
  · intro i x hx
    rcases hjob i x hx with h1 | ⟨-, rfl⟩
    · exact hA.fine i x h1
    · exact opens_fine h.opens
  · intro c' r' hc
    rcases hget c' r' hc with ⟨rfl, rfl⟩ | ⟨-, h1⟩
    · refine hown _ _ _ _ ((hA.calls c' r h.old).mono ?_)
      intro hst
      rw [h.stage] at hst
      cases hst
    · exact hown _ _ _ _ (hA.calls c' r' h1)
  · intro i x hx j a n hp
    rcases hjob i x hx with h1 | ⟨-, rfl⟩
    · exact hown _ _ _ _ (hA.parents i x h1 j a n hp)
    · rw [e3] at hp
      cases hp
  · intro i x hx c' r' hp hc
    rcases hjob i x hx with h1 | ⟨-, rfl⟩
    · rcases hget c' r' hc with ⟨rfl, rfl⟩ | ⟨-, h2⟩
      · exact absurd hp (hnone i x h1)
      · exact hA.stage i x h1 c' r' hp h2
    · rw [e3] at hp
      cases hp
      rw [hcall] at hc
      cases hc
      exact ⟨by simp [stageNumber], by simp [e5]⟩
  · intro i i' x x' hx hx' c' hp hp'
    rcases hjob i x hx with h1 | ⟨h1, rfl⟩ <;> rcases hjob i' x' hx' with h2 | ⟨h2, rfl⟩
    · exact hA.unique i i' x x' h1 h2 c' hp hp'
    · rw [e3] at hp'
      cases hp'
      exact absurd hp (hnone i x h1)
    · rw [e3] at hp
      cases hp
      exact absurd hp' (hnone i' x' h2)
    · omega
  · intro c' r' hc hst
    rcases hget c' r' hc with ⟨rfl, rfl⟩ | ⟨-, h1⟩
    · refine ⟨s.jobs.length, k', ?_, e3⟩
      rw [h.jobs]
      simp
    · obtain ⟨i, x, g1, g2⟩ := hA.running c' r' h1 hst
      exact ⟨i, x, by rw [h.jobs]; exact keep_get g1, g2⟩
  · intro c' r' hc hst
    rcases hget c' r' hc with ⟨rfl, rfl⟩ | ⟨-, h1⟩
    · cases hst
    · exact hA.queued c' r' h1 hst

theorem active_told (hA : Active w s) (h : Told s s') : Active w s' := by
  have hlog : ∀ i b, logAt s' i b = logAt s i b := by
    intro i b
    cases hx : s.jobs[i]? with
    | some x =>
      rw [logAt_get hx]
      rcases h.put hx with h1 | h1
      · rw [logAt_get h1]
      · rw [logAt_get h1, told_log]
    | none =>
      have : s'.jobs[i]? = none := by
        cases hx' : s'.jobs[i]? with
        | none => rfl
        | some x' =>
          obtain ⟨y, h1, -⟩ := h.get hx'
          rw [hx] at h1
          cases h1
      unfold logAt
      rw [hx, this]
  have hback : ∀ (i : Nat) x, s'.jobs[i]? = some x → ∃ y, s.jobs[i]? = some y ∧ x.parent = y.parent ∧
      x.main.phase = y.main.phase ∧ x.main.log = y.main.log ∧ (Fine w y → Fine w x) := by
    intro i x hx
    obtain ⟨y, h1, rfl | rfl⟩ := h.get hx
    · exact ⟨x, h1, rfl, rfl, rfl, id⟩
    · exact ⟨y, h1, rfl, rfl, rfl, told_fine⟩
  refine ⟨?_, ?_, ?_, ?_, ?_, ?_, by rw [h.1]; exact hA.queued⟩
  · intro i x hx
    obtain ⟨y, h1, -, -, -, h2⟩ := hback i x hx
    exact h2 (hA.fine i y h1)
  · intro c r hc
    rw [h.1] at hc
    exact (hA.calls c r hc).congr (hlog _ _)
  · intro i x hx j a n hp
    obtain ⟨y, h1, h2, h3, -, -⟩ := hback i x hx
    rw [h3]
    exact (hA.parents i y h1 j a n (by rw [← h2]; exact hp)).congr (hlog _ _)
  · intro i x hx c r hp hc
    obtain ⟨y, h1, h2, -, h3, -⟩ := hback i x hx
    rw [h.1] at hc
    rw [h3]
    exact hA.stage i y h1 c r (by rw [← h2]; exact hp) hc
  · intro i i' x x' hx hx' c hp hp'
    obtain ⟨y, h1, h2, -⟩ := hback i x hx
    obtain ⟨y', h3, h4, -⟩ := hback i' x' hx'
    exact hA.unique i i' y y' h1 h3 c (by rw [← h2]; exact hp) (by rw [← h4]; exact hp')
  · intro c r hc hst
    rw [h.1] at hc
    obtain ⟨i, x, g1, g2⟩ := hA.running c r hc hst
    rcases h.put g1 with h1 | h1
    · exact ⟨i, x, h1, g2⟩
    · exact ⟨i, _, h1, g2⟩

theorem active_start (h : Start w s) : Active w s := by
  have hroot : ∀ (i : Nat) k, s.jobs[i]? = some k → k.parent = .root ∧ Fine w k := by
    obtain ⟨h1, h2, h3⟩ := h
    intro i k hi
    have hlt : i < (Whole.roots w.cfg).length := by rw [← h2]; exact (List.getElem?_eq_some_iff.1 hi).1
    obtain ⟨k', g1, g2⟩ := h3 i _ (List.getElem?_eq_getElem hlt)
    rw [hi] at g1
    cases g1
    exact ⟨(opens_same g2).2.2.1, opens_fine g2⟩
  have hnc : ∀ (c : Nat) r, s.calls[c]? ≠ some r := by
    intro c r hc
    rw [h.1] at hc
    simp at hc
  refine ⟨fun i k hi => (hroot i k hi).2, fun c r hc => absurd hc (hnc c r), ?_, ?_, ?_,
    fun c r hc => absurd hc (hnc c r), fun c r hc => absurd hc (hnc c r)⟩
  · intro i k hi j a n hp
    rw [(hroot i k hi).1] at hp
    cases hp
  · intro i k hi c r hp
    rw [(hroot i k hi).1] at hp
    cases hp
  · intro i i' k k' hi _ c hp
    rw [(hroot i k hi).1] at hp
    cases hp

/-! ### All steps -/

theorem step_move {e : Env} (hs : SoundTest e w) (hp : CancelTest w.cfg) (hA : Active w s) (h : Step w s s') :
    Move w s s' := by
  rcases step_shape hs hp hA.fine h with ⟨j, k, k', xs, rs, h⟩ | ⟨c, r, st, h, -⟩ | ⟨c, r, l, k', h⟩
  · exact .turn h
  · exact .pass h
  · exact .serve h

theorem move_keeps (hP : Placed w s) (hA : Active w s) (h : Move w s s') : Placed w s' ∧ Active w s' := by
  cases h with
  | turn h => exact ⟨placed_change hP (change_turn h), active_turn hP hA h⟩
  | pass h => exact ⟨placed_change hP (change_pass h), active_pass hP hA h⟩
  | serve h => exact ⟨placed_change hP (change_serve hP h), active_serve hP hA h⟩
  | told h => exact ⟨placed_change hP (change_told h), active_told hA h⟩

/-- RPCs go on and never back. -/
theorem move_stage (hA : Active w s) (h : Move w s s') {c : Nat} {r : Traffic.Call} (hc : s.calls[c]? = some r) :
    ∃ st, s'.calls[c]? = some { r with stage := st } ∧ stageNumber r.stage ≤ stageNumber st := by
  cases h with
  | @turn j k k' xs rs h =>
    rw [h.callPut hc]
    split
    · rename_i hh
      have := (hA.stage j k h.old c r hh.2 hc).2
      refine ⟨_, rfl, ?_⟩
      rw [this.2 (by rcases h.resp with h3 | h3 <;> omega)]
      simp [stageNumber]
    · exact ⟨r.stage, rfl, Nat.le_refl _⟩
  | @pass c' r' st h =>
    rw [h.put hc]
    split
    · rename_i hh
      subst hh
      rw [h.old] at hc
      cases hc
      refine ⟨st, rfl, ?_⟩
      rcases h.how with ⟨h1, h2, -⟩ | ⟨h1, h2⟩ | ⟨h1, h2⟩ <;> rw [h1, h2] <;> simp [stageNumber]
    · exact ⟨r.stage, rfl, Nat.le_refl _⟩
  | @serve c' r' l k' h =>
    rw [h.calls]
    by_cases hcc : c = c'
    · subst hcc
      rw [h.old] at hc
      cases hc
      refine ⟨.running, List.getElem?_set_self (List.getElem?_eq_some_iff.1 h.old).1, ?_⟩
      rw [h.stage]
      simp [stageNumber]
    · exact ⟨r.stage, by rw [List.getElem?_set_ne (Ne.symm hcc), hc], Nat.le_refl _⟩
  | told h => exact ⟨r.stage, by rw [h.1]; exact hc, Nat.le_refl _⟩

end Distbench.Loops

namespace Distbench.LoopsCancel
open Tables Services Whole Spec Loops

variable {w : Test}

theorem settle_told (s : State) (b : Loops.State) : Told b (settle s b).base :=
  ⟨rfl, fun k => s.cancelled k.engine || b.jobs.any fun k' => k'.engine = k.engine && k'.main.canceled, rfl⟩

/-- A step is one or two moves of the traffic, or none. -/
theorem step_moves {e : Env} {s s' : State} (hs : SoundTest e w) (hp : CancelTest w.cfg) (hA : Active w s.base)
    (h : Step w s s') : s'.base = s.base ∨ ∃ b, Move w s.base b ∧ (s'.base = b ∨ Told b s'.base) := by
  cases h with
  | @run b h1 h2 => exact .inr ⟨b, step_move hs hp hA h1, .inr (settle_told s b)⟩
  | cancel e => exact .inr ⟨_, .told (settle_told { s with cancelled := fun i => i == e || s.cancelled i } s.base), .inl rfl⟩
  | expire _ => exact .inl rfl
  | @refuse c call hc hst _ =>
    exact .inr ⟨{ s.base with calls := s.base.calls.set c { call with stage := .answered } },
      .pass (c := c) (r := call) (st := .answered) ⟨hc, rfl, rfl, .inr (.inl ⟨hst, rfl⟩)⟩, .inl rfl⟩

theorem step_keeps {e : Env} {s s' : State} (hs : SoundTest e w) (hp : CancelTest w.cfg) (hP : Placed w s.base)
    (hA : Active w s.base) (h : Step w s s') : Placed w s'.base ∧ Active w s'.base := by
  rcases step_moves hs hp hA h with h1 | ⟨b, h1, h2⟩
  · rw [h1]
    exact ⟨hP, hA⟩
  · obtain ⟨g1, g2⟩ := move_keeps hP hA h1
    rcases h2 with h2 | h2
    · rw [h2]
      exact ⟨g1, g2⟩
    · exact move_keeps g1 g2 (.told h2)

theorem reach_inv {e : Env} {s : State} (hs : SoundTest e w) (hp : CancelTest w.cfg) (h : Reach w s) :
    Placed w s.base ∧ Active w s.base := by
  induction h with
  | start h => exact ⟨placed_start h, active_start h⟩
  | step _ h2 ih => exact step_keeps hs hp ih.1 ih.2 h2

theorem step_stage {e : Env} {s s' : State} (hs : SoundTest e w) (hp : CancelTest w.cfg) (hP : Placed w s.base)
    (hA : Active w s.base) (h : Step w s s') {c : Nat} {r : Traffic.Call} (hc : s.base.calls[c]? = some r) :
    ∃ st, s'.base.calls[c]? = some { r with stage := st } ∧ stageNumber r.stage ≤ stageNumber st := by
  rcases step_moves hs hp hA h with h1 | ⟨b, h1, h2⟩
  · exact ⟨r.stage, by rw [h1]; exact hc, Nat.le_refl _⟩
  · obtain ⟨st, g1, g2⟩ := move_stage hA h1 hc
    rcases h2 with h2 | h2
    · exact ⟨st, by rw [h2]; exact g1, g2⟩
    · exact ⟨st, by rw [h2.1]; exact g1, g2⟩

end Distbench.LoopsCancel
