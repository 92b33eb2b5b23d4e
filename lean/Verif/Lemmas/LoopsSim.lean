import Verif.Lemmas.Loops
import Verif.Lemmas.TrafficInv

/-! The traffic of Model/Loops.lean as seen from outside is that of Model/WholeTime.lean: changes. -/

namespace Distbench.Loops
open Tables Services Whole Spec

/-- The run `j` goes from `k` to `k'`, and new runs begin. -/
structure Upd (s s' : State) (j : Nat) (k k' : Job) (ext : List Job) : Prop where
  old : s.jobs[j]? = some k
  jobs : s'.jobs = s.jobs.set j k' ++ ext
  engine : k'.engine = k.engine
  list : k'.list = k.list
  parent : k'.parent = k.parent
  entry : k'.entry = k.entry
  fresh : ∀ x ∈ ext, ∀ a, x.under a = none
  place : ∀ a (n : Nat), 0 < starts n (logOf k a) →
    Iterations.place n (logOf k' a) = Iterations.place n (logOf k a)

variable {w : Test} {s s' : State} {j : Nat} {k k' : Job} {ext : List Job}

theorem Upd.lt (h : Upd s s' j k k' ext) : j < s.jobs.length := (List.getElem?_eq_some_iff.1 h.old).1

theorem Upd.get (h : Upd s s' j k k' ext) : s'.jobs[j]? = some k' := by
  rw [h.jobs, List.getElem?_append_left (by rw [List.length_set]; exact h.lt), List.getElem?_set_self h.lt]

theorem Upd.other (h : Upd s s' j k k' ext) {i : Nat} {x : Job} (hi : s.jobs[i]? = some x) (hne : i ≠ j) :
    s'.jobs[i]? = some x := by
  have hl := (List.getElem?_eq_some_iff.1 hi).1
  rw [h.jobs, List.getElem?_append_left (by rw [List.length_set]; exact hl), List.getElem?_set_ne (Ne.symm hne)]
  exact hi

theorem Upd.cases (h : Upd s s' j k k' ext) {i : Nat} {x : Job} (hi : s'.jobs[i]? = some x) :
    (i = j ∧ x = k') ∨ (i ≠ j ∧ s.jobs[i]? = some x) ∨ (s.jobs[i]? = none ∧ x ∈ ext) := by
  by_cases hij : i = j
  · subst hij
    rw [h.get] at hi
    cases hi
    exact .inl ⟨rfl, rfl⟩
  · right
    rw [h.jobs] at hi
    by_cases hl : i < s.jobs.length
    · rw [List.getElem?_append_left (by rw [List.length_set]; exact hl), List.getElem?_set_ne (Ne.symm hij)] at hi
      exact .inl ⟨hij, hi⟩
    · rw [List.getElem?_append_right (by rw [List.length_set]; omega)] at hi
      exact .inr ⟨List.getElem?_eq_none (by omega), List.mem_of_getElem? hi⟩

theorem logOf_fresh {x : Job} (h : ∀ a, x.under a = none) (a : Nat) : logOf x a = [] := by
  unfold logOf
  rw [h a]

theorem Upd.logAt_same (h : Upd s s' j k k' ext) (a : Nat) : logAt s' j a = logOf k' a := by
  unfold logAt
  rw [h.get]

theorem Upd.logAt_old (h : Upd s s' j k k' ext) (a : Nat) : logAt s j a = logOf k a := by
  unfold logAt
  rw [h.old]

theorem Upd.logAt_other (h : Upd s s' j k k' ext) {i : Nat} (hi : i ≠ j) (a : Nat) :
    logAt s' i a = logAt s i a := by
  unfold logAt
  cases hx : s'.jobs[i]? with
  | none =>
    cases hy : s.jobs[i]? with
    | none => rfl
    | some y => rw [h.other hy hi] at hx; cases hx
  | some x =>
    rcases h.cases hx with ⟨h1, -⟩ | ⟨-, h1⟩ | ⟨h1, h2⟩
    · exact absurd h1 hi
    · rw [h1]
    · rw [h1]
      exact logOf_fresh (h.fresh x h2) a

theorem itersOf_entry {k k' : Job} (h : k'.entry = k.entry) (a : Nat) : itersOf k' a = itersOf k a := by
  unfold itersOf
  rw [h]

theorem Upd.number (h : Upd s s' j k k' ext) {i a n : Nat} (hn : 0 < starts n (logAt s i a)) :
    number s' i a n = number s i a n := by
  unfold Loops.number
  by_cases hi : i = j
  · subst hi
    rw [h.logAt_old] at hn
    rw [h.get, h.old]
    dsimp only
    rw [itersOf_entry h.entry, h.place a n hn]
  · cases hy : s.jobs[i]? with
    | none => simp [logAt, hy, starts] at hn
    | some y => rw [h.other hy hi]

theorem Upd.absParent (h : Upd s s' j k k' ext) (hI : Inv w s) {x : Job} (hx : x ∈ s.jobs) :
    absParent s' x.parent = absParent s x.parent := by
  cases hp : x.parent with
  | root => rfl
  | call c => rfl
  | action i a n =>
    simp only [Loops.absParent]
    rw [h.number (hI.parents x hx i a n hp).1]

theorem Upd.absJob (h : Upd s s' j k k' ext) (hI : Inv w s) {x : Job} (hx : x ∈ s.jobs) :
    absJob s' x = absJob s x := by
  unfold Loops.absJob
  rw [h.absParent hI hx]

theorem Upd.absHere (h : Upd s s' j k k' ext) (hI : Inv w s) :
    Loops.absJob s' k' = { Loops.absJob s k with
      acts := (List.range k.entry.listActions.length).map (absAct k')
      early := earlyOf k'
      over := decide (k'.main.phase = .done) } := by
  unfold Loops.absJob
  rw [h.parent, h.absParent hI (List.mem_of_getElem? h.old), h.engine, h.list, h.entry]

theorem Upd.abs_jobs (h : Upd s s' j k k' ext) (hI : Inv w s) :
    s'.jobs.map (Loops.absJob s') = (s.jobs.map (Loops.absJob s)).set j { Loops.absJob s k with
      acts := (List.range k.entry.listActions.length).map (absAct k')
      early := earlyOf k'
      over := decide (k'.main.phase = .done) } ++ ext.map (Loops.absJob s') := by
  rw [h.jobs, List.map_append, List.map_set, h.absHere hI]
  congr 2
  exact List.map_congr_left fun x hx => h.absJob hI hx

theorem Upd.abs_calls (h : Upd s s' j k k' ext) (hI : Inv w s) :
    s.calls.map (absCall s') = s.calls.map (absCall s) := by
  refine List.map_congr_left fun r hr => ?_
  unfold absCall
  rw [h.number (hI.calls r hr).1]

theorem answer_map (calls : List Traffic.Call) (p : Traffic.Parent) (s s' : State) :
    (Traffic.answer calls p).map (absCall s') = Traffic.answer (calls.map (absCall s')) (absParent s p) := by
  cases p with
  | root => rfl
  | action _ _ _ => rfl
  | call c =>
    simp only [Traffic.answer, absParent]
    apply List.ext_getElem?
    intro i
    rw [List.getElem?_map, List.getElem?_modify, List.getElem?_modify, List.getElem?_map]
    cases calls[i]? with
    | none => rfl
    | some r =>
      dsimp only [Option.map_some]
      by_cases hc : c = i
      · simp [hc, absCall]
      · simp [hc, absCall]

/-- One entry of the actions changes. -/
theorem acts_set {k k' : Job} {n a : Nat} (h : ∀ b, b ≠ a → absAct k' b = absAct k b) :
    (List.range n).map (absAct k') = ((List.range n).map (absAct k)).set a (absAct k' a) := by
  apply List.ext_getElem?
  intro b
  rw [List.getElem?_set]
  by_cases hb : a = b
  · subst hb
    rw [if_pos rfl]
    split
    · rename_i hl
      simp only [List.length_map, List.length_range] at hl
      rw [List.getElem?_map, List.getElem?_range hl, Option.map_some]
    · rename_i hl
      simp only [List.length_map, List.length_range] at hl
      rw [List.getElem?_eq_none (by simpa using hl)]
  · rw [if_neg hb, List.getElem?_map, List.getElem?_map]
    cases hr : (List.range n)[b]? with
    | none => rfl
    | some c =>
      have : c = b := by
        obtain ⟨h1, h2⟩ := List.getElem?_eq_some_iff.1 hr
        simpa using h2.symm
      subst this
      rw [Option.map_some, Option.map_some, h c (fun he => hb he.symm)]

theorem acts_same {k k' : Job} {n : Nat} (h : ∀ b, absAct k' b = absAct k b) :
    (List.range n).map (absAct k') = (List.range n).map (absAct k) :=
  List.map_congr_left fun b _ => h b

theorem acts_get {k : Job} {a : Nat} {x : ActionEntry} (hx : k.entry.listActions[a]? = some x) (s : State) :
    (absJob s k).acts[a]? = some (absAct k a) := by
  have hl := (List.getElem?_eq_some_iff.1 hx).1
  show ((List.range _).map _)[a]? = _
  rw [List.getElem?_map, List.getElem?_range hl]
  rfl

theorem set_same {α : Type} {l : List α} {i : Nat} {x : α} (h : l[i]? = some x) : l.set i x = l := by
  obtain ⟨h1, h2⟩ := List.getElem?_eq_some_iff.1 h
  rw [← h2]
  exact List.set_getElem_self h1

theorem abs_get (h : s.jobs[j]? = some k) : (abs s).jobs[j]? = some (absJob s k) := by
  show (s.jobs.map _)[j]? = _
  rw [List.getElem?_map, h]
  rfl

theorem Owned.mono {a n : Nat} {p q : Prop} (h : Owned s j a n p) (hpq : p → q) : Owned s j a n q :=
  ⟨h.1, fun hq => h.2 fun hp => hq (hpq hp)⟩

theorem Owned.congr {a n : Nat} {p : Prop} (h : Owned s j a n p) (hl : logAt s' j a = logAt s j a) :
    Owned s' j a n p := by
  unfold Owned at h ⊢
  rw [hl]
  exact h

/-- The invariant after a change. -/
theorem Upd.inv (h : Upd s s' j k k' ext) (hI : Inv w s) (hk : JobOk w k') (he : ∀ x ∈ ext, JobOk w x)
    (hd : k.main.phase = .done → k'.main.phase = .done)
    (hc : ∀ r ∈ s'.calls, Owned s' r.job r.action r.iter (r.stage = .completed))
    (hp : ∀ x ∈ s.jobs, ∀ i a n, x.parent = .action i a n → Owned s' i a n (x.main.phase = .done))
    (hx : ∀ x ∈ ext, ∀ i a n, x.parent = .action i a n → Owned s' i a n (x.main.phase = .done)) : Inv w s' := by
  refine ⟨?_, hc, ?_⟩
  · intro i x hi
    rcases h.cases hi with ⟨-, rfl⟩ | ⟨-, h1⟩ | ⟨-, h1⟩
    · exact hk
    · exact hI.jobs i x h1
    · exact he x h1
  · intro x hx' i a n hxp
    obtain ⟨i', hi'⟩ := List.getElem?_of_mem hx'
    rcases h.cases hi' with ⟨-, rfl⟩ | ⟨-, h1⟩ | ⟨-, h1⟩
    · rw [h.parent] at hxp
      exact (hp k (List.mem_of_getElem? h.old) i a n hxp).mono hd
    · exact hp x (List.mem_of_getElem? h1) i a n hxp
    · exact hx x h1 i a n hxp

/-- The same when the logs of iterations stay as they are. -/
theorem Upd.inv_same (h : Upd s s' j k k' ext) (hI : Inv w s) (hlog : ∀ a, logOf k' a = logOf k a)
    (hk : JobOk w k') (he : ∀ x ∈ ext, JobOk w x) (hd : k.main.phase = .done → k'.main.phase = .done)
    (hc : ∀ r ∈ s'.calls, ∃ r0 ∈ s.calls, r.job = r0.job ∧ r.action = r0.action ∧ r.iter = r0.iter ∧
      (r0.stage = .completed → r.stage = .completed))
    (hx : ∀ x ∈ ext, ∀ i a n, x.parent ≠ .action i a n) : Inv w s' := by
  have hl : ∀ i a, logAt s' i a = logAt s i a := by
    intro i a
    by_cases hi : i = j
    · subst hi
      rw [h.logAt_same, h.logAt_old, hlog]
    · exact h.logAt_other hi a
  refine h.inv hI hk he hd ?_ ?_ ?_
  · intro r hr
    obtain ⟨r0, h0, e1, e2, e3, e4⟩ := hc r hr
    rw [e1, e2, e3]
    exact ((hI.calls r0 h0).mono e4).congr (hl _ _)
  · intro x hx' i a n hxp
    exact (hI.parents x hx' i a n hxp).congr (hl _ _)
  · intro x hx' i a n hxp
    exact absurd hxp (hx x hx' i a n)

end Distbench.Loops
