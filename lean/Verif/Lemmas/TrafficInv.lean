import Verif.Lemmas.Traffic

/-! Lemmas for Props/Traffic.lean: the invariant of a test. -/

namespace Distbench.Traffic
open Spec

/-- The list has not yet sent its response. -/
def Unanswered (k : Job) : Prop :=
  k.over = false ∧ ∀ a x, k.early = some a → k.acts[a]? = some x → x.ended = false

/-- `R`: the RPCs that were refused. -/
structure Inv (cfg : Config) (R : Nat → Prop) (s : State) : Prop where
  may : ∀ (j : Nat) (k : Job), s.jobs[j]? = some k → MayRun cfg k.engine k.list
  len : ∀ (j : Nat) (k : Job), s.jobs[j]? = some k → k.acts.length = (cfg.actions k.list).length
  over : ∀ (j : Nat) (k : Job), s.jobs[j]? = some k → k.over = true →
    ∀ (a : Nat) (x : Act), k.acts[a]? = some x → x.ended = true
  early : ∀ (j : Nat) (k : Job) (a : Nat), s.jobs[j]? = some k → k.early = some a →
    ∃ x, k.acts[a]? = some x ∧ x ≠ .waiting
  left : ∀ (j : Nat) (k : Job) (a n : Nat) (x : Action), s.jobs[j]? = some k →
    k.acts[a]? = some (.running n) → (cfg.actions k.list)[a]? = some x → n ≤ x.iters
  parent : ∀ (j : Nat) (k : Job) (c : Nat), s.jobs[j]? = some k → k.parent = .call c →
    ∃ r, s.calls[c]? = some r ∧ cfg.handler r.rpc = some k.list ∧ k.engine = r.target ∧ r.job < j ∧
      r.stage ≠ .sent ∧ r.stage ≠ .queued ∧ (r.stage = .running ↔ Unanswered k)
  unique : ∀ (i j : Nat) (k k' : Job) (c : Nat), s.jobs[i]? = some k → s.jobs[j]? = some k' →
    k.parent = .call c → k'.parent = .call c → i = j
  handled : ∀ (c : Nat) (r : Call) (l : Nat), s.calls[c]? = some r → cfg.handler r.rpc = some l →
    r.stage ≠ .sent → r.stage ≠ .queued → (r.stage = .running ∨ ¬ R c) →
    ∃ (j : Nat) (k : Job), s.jobs[j]? = some k ∧ k.parent = .call c
  unhandled : ∀ (c : Nat) (r : Call), s.calls[c]? = some r → cfg.handler r.rpc = none →
    r.stage ≠ .queued ∧ r.stage ≠ .running
  made : ∀ (c : Nat) (r : Call), s.calls[c]? = some r → ∃ (k : Job) (x : Action) (fan : Nat) (y : Act),
    s.jobs[r.job]? = some k ∧ (cfg.actions k.list)[r.action]? = some x ∧ x.work = .rpc r.rpc fan ∧
      r.iter < x.iters ∧ cfg.servers r.rpc r.target = true ∧ k.acts[r.action]? = some y ∧
      (y = .finished ∧ r.stage = .completed ∨ ∃ n, y = .running n)
  nested : ∀ (j : Nat) (k : Job) (j' a i : Nat), s.jobs[j]? = some k → k.parent = .action j' a i →
    j' < j ∧ ∃ (k' : Job) (x : Action) (y : Act), s.jobs[j']? = some k' ∧
      (cfg.actions k'.list)[a]? = some x ∧ x.work = .list k.list ∧ i < x.iters ∧ k.engine = k'.engine ∧
      k'.acts[a]? = some y ∧ (y = .finished ∧ k.over = true ∨ ∃ n, y = .running n)

variable {R : Nat → Prop}

theorem inv_complete {cfg : Config} {s s' : State} {c : Nat} (h : Inv cfg R s)
    (hs : step cfg s (.complete c) = some s') : Inv cfg R s' := by
  obtain ⟨r, hr, hst, rfl⟩ := step_complete hs
  obtain ⟨may, len, over, early, left, parent, unique, handled, unhandled, made, nested⟩ := h
  refine ⟨may, len, over, early, left, ?_, unique, ?_, ?_, ?_, nested⟩
  · grind
  · grind
  · grind
  · grind

theorem inv_deliver {cfg : Config} {s s' : State} {c : Nat} (h : Inv cfg R s)
    (hs : step cfg s (.deliver c) = some s') : Inv cfg R s' := by
  obtain ⟨r, hr, hst, rfl⟩ := step_deliver hs
  obtain ⟨may, len, over, early, left, parent, unique, handled, unhandled, made, nested⟩ := h
  refine ⟨may, len, over, early, left, ?_, unique, ?_, ?_, ?_, nested⟩
  · grind
  · grind
  · grind
  · grind

theorem newJob_unanswered (cfg : Config) (e l : Nat) (p : Parent) : Unanswered (newJob cfg e l p) := by
  refine ⟨rfl, ?_⟩
  intro a x h
  cases h

theorem newJob_acts {cfg : Config} {e l : Nat} {p : Parent} {a : Nat} {x : Act}
    (h : (newJob cfg e l p).acts[a]? = some x) : x = .waiting := by
  simp only [newJob, List.getElem?_map, Option.map_eq_some_iff] at h
  obtain ⟨_, _, rfl⟩ := h
  rfl

theorem newJob_length (cfg : Config) (e l : Nat) (p : Parent) :
    (newJob cfg e l p).acts.length = (cfg.actions l).length := by
  simp [newJob]

/-- Where the jobs are after one was added. -/
theorem jobs_append {jobs : List Job} {n k : Job} {j : Nat} (h : (jobs ++ [n])[j]? = some k) :
    jobs[j]? = some k ∨ (j = jobs.length ∧ k = n) := by
  rw [List.getElem?_append] at h
  split at h
  · exact .inl h
  · next hlt =>
    cases hd : j - jobs.length with
    | zero =>
      rw [hd] at h
      simp at h
      exact .inr ⟨by omega, h.symm⟩
    | succ m => rw [hd] at h; simp at h

theorem inv_dispatch {cfg : Config} {s s' : State} {c : Nat} (h : Inv cfg R s)
    (hs : step cfg s (.dispatch c) = some s') : Inv cfg R s' := by
  obtain ⟨r, l, hr, hl, hst, hfree, rfl⟩ := step_dispatch hs
  clear hs hfree
  obtain ⟨may, len, over, early, left, parent, unique, handled, unhandled, made, nested⟩ := h
  have hnone : ∀ (j : Nat) (k : Job), s.jobs[j]? = some k → k.parent ≠ .call c := by grind
  have hun := newJob_unanswered cfg r.target l (.call c)
  have hac := @newJob_acts cfg r.target l (.call c)
  have hln := newJob_length cfg r.target l (.call c)
  have h1 : (newJob cfg r.target l (.call c)).parent = .call c := rfl
  have h2 : (newJob cfg r.target l (.call c)).engine = r.target := rfl
  have h3 : (newJob cfg r.target l (.call c)).list = l := rfl
  have h4 : (newJob cfg r.target l (.call c)).over = false := rfl
  have h5 : (newJob cfg r.target l (.call c)).early = none := rfl
  obtain ⟨k0, x0, f0, y0, hm1, _, _, _, hsrv, _⟩ := made c r hr
  have hlt : r.job < s.jobs.length := (List.getElem?_eq_some_iff.1 hm1).1
  have hmay : MayRun cfg r.target l := .handler hsrv hl
  have hja : ∀ (j : Nat) (k : Job), (s.jobs ++ [newJob cfg r.target l (.call c)])[j]? = some k →
      s.jobs[j]? = some k ∨ (j = s.jobs.length ∧ k = newJob cfg r.target l (.call c)) :=
    fun j k => jobs_append
  have hold : ∀ (j : Nat) (k : Job), s.jobs[j]? = some k →
      (s.jobs ++ [newJob cfg r.target l (.call c)])[j]? = some k := by
    intro j k hk
    rw [List.getElem?_append_left (List.getElem?_eq_some_iff.1 hk).1]
    exact hk
  have hnew : (s.jobs ++ [newJob cfg r.target l (.call c)])[s.jobs.length]? =
      some (newJob cfg r.target l (.call c)) := by simp
  generalize newJob cfg r.target l (.call c) = nj at *
  generalize s.jobs ++ [nj] = jobs' at *
  refine ⟨?_, ?_, ?_, ?_, ?_, ?_, ?_, ?_, ?_, ?_, ?_⟩
  · intro j k hk
    rcases hja j k hk with hk | ⟨_, rfl⟩
    · exact may j k hk
    · rw [h2, h3]; exact hmay
  · intro j k hk
    rcases hja j k hk with hk | ⟨_, rfl⟩
    · exact len j k hk
    · rw [hln, h3]
  · intro j k hk
    rcases hja j k hk with hk | ⟨_, rfl⟩
    · exact over j k hk
    · intro h; rw [h4] at h; cases h
  · intro j k a hk
    rcases hja j k hk with hk | ⟨_, rfl⟩
    · exact early j k a hk
    · intro h; rw [h5] at h; cases h
  · intro j k a n x hk hrun
    rcases hja j k hk with hk | ⟨_, rfl⟩
    · exact left j k a n x hk hrun
    · have := hac hrun; cases this
  · intro j k c' hk hp
    rcases hja j k hk with hk | ⟨hj, rfl⟩
    · have := parent j k c' hk hp
      have := hnone j k hk
      grind
    · rw [h1] at hp
      cases hp
      refine ⟨{ r with stage := .running }, ?_, ?_, ?_, ?_, ?_, ?_, ?_⟩
      · have := (List.getElem?_eq_some_iff.1 hr).1
        simp [this]
      · rw [h3]; exact hl
      · exact h2
      · show r.job < j
        omega
      · simp
      · simp
      · simp [hun]
  · intro i j k k' c' hi hj hp hp'
    rcases hja i k hi with hi | ⟨e1, rfl⟩
    · rcases hja j k' hj with hj | ⟨e2, rfl⟩
      · exact unique i j k k' c' hi hj hp hp'
      · rw [h1] at hp'; cases hp'; exact absurd hp (hnone i k hi)
    · rcases hja j k' hj with hj | ⟨e2, rfl⟩
      · rw [h1] at hp; cases hp; exact absurd hp' (hnone j k' hj)
      · rw [e1, e2]
  · intro c' r' l' hc'
    by_cases he : c = c'
    · subst he
      intro _ _ _ _
      exact ⟨_, _, hnew, h1⟩
    · rw [List.getElem?_set_ne he] at hc'
      intro e1 e2 e3 e4
      obtain ⟨j, k, hk, hp⟩ := handled c' r' l' hc' e1 e2 e3 e4
      exact ⟨j, k, hold j k hk, hp⟩
  · clear made nested
    grind
  · intro c' r' hc'
    clear nested
    by_cases he : c = c'
    · subst he
      obtain ⟨k, x, f, y, e1, e2⟩ := made c r hr
      have := hold _ _ e1
      grind
    · rw [List.getElem?_set_ne he] at hc'
      obtain ⟨k, x, f, y, e1, e2⟩ := made c' r' hc'
      exact ⟨k, x, f, y, hold _ _ e1, e2⟩
  · intro j k j' a i hk hp
    rcases hja j k hk with hk | ⟨_, rfl⟩
    · obtain ⟨e0, k', x, y, e1, e2⟩ := nested j k j' a i hk hp
      exact ⟨e0, k', x, y, hold _ _ e1, e2⟩
    · rw [h1] at hp; cases hp

theorem answer_get {calls : List Call} {p : Parent} {c : Nat} {r : Call}
    (h : (answer calls p)[c]? = some r) :
    ∃ r0, calls[c]? = some r0 ∧ r.rpc = r0.rpc ∧ r.target = r0.target ∧ r.job = r0.job ∧
      r.action = r0.action ∧ r.iter = r0.iter ∧
      (r.stage = if p = .call c then .answered else r0.stage) := by
  unfold answer at h
  split at h
  · next c' =>
    rw [List.getElem?_modify] at h
    by_cases he : c' = c
    · subst he
      cases h0 : calls[c']? with
      | none => rw [h0] at h; simp at h
      | some r0 =>
        rw [h0] at h
        simp at h
        subst h
        exact ⟨r0, rfl, rfl, rfl, rfl, rfl, rfl, by simp⟩
    · simp only [he, if_false, Option.map_eq_map, Option.map_id'] at h
      refine ⟨r, h, rfl, rfl, rfl, rfl, rfl, ?_⟩
      rw [if_neg]
      intro hh
      cases hh
      exact he rfl
  · next hn =>
    refine ⟨r, h, rfl, rfl, rfl, rfl, rfl, ?_⟩
    rw [if_neg (hn c)]

theorem answer_of {calls : List Call} {p : Parent} {c : Nat} {r0 : Call} (h : calls[c]? = some r0) :
    (answer calls p)[c]? = some { r0 with stage := if p = .call c then .answered else r0.stage } := by
  unfold answer
  split
  · next c' =>
    rw [List.getElem?_modify, h]
    by_cases he : c' = c
    · subst he; simp
    · have : Parent.call c' ≠ .call c := by intro hh; cases hh; exact he rfl
      simp [he]
  · next hn => rw [h, if_neg (hn c)]

/-- A run of a list changes, and perhaps sends its response. -/
theorem inv_set {cfg : Config} {s : State} {j : Nat} {job : Job} (acts' : List Act) (early' : Option Nat)
    (over' : Bool) (calls' : List Call) (h : Inv cfg R s) (hj : s.jobs[j]? = some job)
    (hlen : acts'.length = job.acts.length)
    (hover : over' = true → ∀ (a : Nat) (x : Act), acts'[a]? = some x → x.ended = true)
    (hearly : ∀ a, early' = some a → ∃ x, acts'[a]? = some x ∧ x ≠ .waiting)
    (hleft : ∀ (a n : Nat) (x : Action), acts'[a]? = some (.running n) →
      (cfg.actions job.list)[a]? = some x → n ≤ x.iters)
    (hmono : job.over = true → over' = true)
    (hfin : ∀ a : Nat, job.acts[a]? = some .finished → acts'[a]? = some .finished)
    (hrun : ∀ a n : Nat, job.acts[a]? = some (.running n) →
      (∃ n', acts'[a]? = some (.running n')) ∨ (acts'[a]? = some .finished ∧
        (∀ (c : Nat) (r : Call), s.calls[c]? = some r → r.job = j → r.action = a → r.stage = .completed) ∧
        ∀ (j' i : Nat) (k : Job), s.jobs[j']? = some k → k.parent = .action j a i → k.over = true))
    (hcalls : (calls' = s.calls ∧ (Unanswered { job with acts := acts', early := early', over := over' } ↔
          Unanswered job)) ∨
      (calls' = answer s.calls job.parent ∧ Unanswered job ∧
        ¬ Unanswered { job with acts := acts', early := early', over := over' })) :
    Inv cfg R
      { jobs := s.jobs.set j { job with acts := acts', early := early', over := over' },
        calls := calls' } := by
  obtain ⟨may, len, over, early, left, parent, unique, handled, unhandled, made, nested⟩ := h
  have hlt : j < s.jobs.length := (List.getElem?_eq_some_iff.1 hj).1
  have hnew : (s.jobs.set j { job with acts := acts', early := early', over := over' })[j]? =
      some { job with acts := acts', early := early', over := over' } := by simp [hlt]
  have hset : ∀ (i : Nat) (k : Job),
      (s.jobs.set j { job with acts := acts', early := early', over := over' })[i]? = some k →
      (i = j ∧ k = { job with acts := acts', early := early', over := over' }) ∨
        (i ≠ j ∧ s.jobs[i]? = some k) := by
    intro i k hk
    by_cases he : j = i
    · subst he
      rw [hnew] at hk
      cases hk
      exact .inl ⟨rfl, rfl⟩
    · rw [List.getElem?_set_ne he] at hk
      exact .inr ⟨Ne.symm he, hk⟩
  have hne : ∀ (i : Nat), i ≠ j →
      (s.jobs.set j { job with acts := acts', early := early', over := over' })[i]? = s.jobs[i]? := by
    intro i hi
    rw [List.getElem?_set_ne (Ne.symm hi)]
  generalize hk' : ({ job with acts := acts', early := early', over := over' } : Job) = k' at *
  have e1 : k'.engine = job.engine := by rw [← hk']
  have e2 : k'.list = job.list := by rw [← hk']
  have e3 : k'.parent = job.parent := by rw [← hk']
  have e4 : k'.acts = acts' := by rw [← hk']
  have e5 : k'.early = early' := by rw [← hk']
  have e6 : k'.over = over' := by rw [← hk']
  generalize s.jobs.set j k' = jobs' at *
  -- the calls
  have hback : ∀ (c : Nat) (r : Call), calls'[c]? = some r → ∃ r0, s.calls[c]? = some r0 ∧
      r.rpc = r0.rpc ∧ r.target = r0.target ∧ r.job = r0.job ∧ r.action = r0.action ∧
      r.iter = r0.iter ∧ (r.stage = r0.stage ∨ (job.parent = .call c ∧ r0.stage = .running ∧
        r.stage = .answered)) := by
    intro c r hr
    rcases hcalls with ⟨rfl, _⟩ | ⟨rfl, hu, _⟩
    · exact ⟨r, hr, rfl, rfl, rfl, rfl, rfl, .inl rfl⟩
    · obtain ⟨r0, h0, f1, f2, f3, f4, f5, f6⟩ := answer_get hr
      refine ⟨r0, h0, f1, f2, f3, f4, f5, ?_⟩
      by_cases hp : job.parent = .call c
      · rw [if_pos hp] at f6
        obtain ⟨r1, g1, _, _, _, _, _, g2⟩ := parent j job c hj hp
        rw [h0] at g1
        cases g1
        exact .inr ⟨hp, g2.2 hu, f6⟩
      · rw [if_neg hp] at f6
        exact .inl f6
  have hforth : ∀ (c : Nat) (r0 : Call), s.calls[c]? = some r0 → ∃ r, calls'[c]? = some r ∧
      r.rpc = r0.rpc ∧ r.target = r0.target ∧ r.job = r0.job ∧ r.action = r0.action ∧
      r.iter = r0.iter ∧ ((calls' = s.calls ∨ job.parent ≠ .call c) → r = r0) ∧
      (calls' ≠ s.calls → job.parent = .call c → r.stage = .answered) := by
    intro c r0 h0
    rcases hcalls with ⟨rfl, _⟩ | ⟨rfl, hu, _⟩
    · exact ⟨r0, h0, rfl, rfl, rfl, rfl, rfl, fun _ => rfl, fun h => absurd rfl h⟩
    · refine ⟨_, answer_of h0, rfl, rfl, rfl, rfl, rfl, ?_, ?_⟩
      · intro hor
        by_cases hp : job.parent = .call c
        · rcases hor with hor | hor
          · have := answer_of (p := job.parent) h0
            rw [hor, h0] at this
            exact (Option.some.inj this).symm
          · exact absurd hp hor
        · rw [if_neg hp]
      · intro _ hp
        dsimp only
        rw [if_pos hp]
  refine ⟨?_, ?_, ?_, ?_, ?_, ?_, ?_, ?_, ?_, ?_, ?_⟩
  · intro i k hk
    rcases hset i k hk with ⟨_, rfl⟩ | ⟨_, hk⟩
    · rw [e1, e2]; exact may j job hj
    · exact may i k hk
  · intro i k hk
    rcases hset i k hk with ⟨_, rfl⟩ | ⟨_, hk⟩
    · rw [e4, e2, hlen]; exact len j job hj
    · exact len i k hk
  · intro i k hk
    rcases hset i k hk with ⟨_, rfl⟩ | ⟨_, hk⟩
    · rw [e4, e6]; exact hover
    · exact over i k hk
  · intro i k a hk
    rcases hset i k hk with ⟨_, rfl⟩ | ⟨_, hk⟩
    · rw [e4, e5]; exact hearly a
    · exact early i k a hk
  · intro i k a n x hk
    rcases hset i k hk with ⟨_, rfl⟩ | ⟨_, hk⟩
    · rw [e4, e2]; exact hleft a n x
    · exact left i k a n x hk
  · intro i k c hk hp
    rcases hset i k hk with ⟨rfl, rfl⟩ | ⟨hij, hk⟩
    · rw [e3] at hp
      obtain ⟨r, g1, g2, g3, g4, g5, g6, g7⟩ := parent i job c hj hp
      rcases hcalls with ⟨rfl, hu⟩ | ⟨rfl, hu, hn⟩
      · exact ⟨r, g1, by rw [e2]; exact g2, by rw [e1]; exact g3, g4, g5, g6, g7.trans hu.symm⟩
      · refine ⟨_, answer_of g1, by rw [e2]; exact g2, by rw [e1]; exact g3, g4, ?_, ?_, ?_⟩
        · simp [hp]
        · simp [hp]
        · simp [hp, hn]
    · obtain ⟨r, g1, g2, g3, g4, g5, g6, g7⟩ := parent i k c hk hp
      have hpj : job.parent ≠ .call c := fun hpj => hij (unique i j k job c hk hj hp hpj)
      obtain ⟨r', f0, f1, f2, f3, f4, f5, f6, f7⟩ := hforth c r g1
      have := f6 (.inr hpj)
      subst this
      exact ⟨r', f0, g2, g3, g4, g5, g6, g7⟩
  · intro i i' k k1 c hi hi' hp hp'
    rcases hset i k hi with ⟨rfl, rfl⟩ | ⟨hij, hk⟩
    · rcases hset i' k1 hi' with ⟨rfl, rfl⟩ | ⟨hij', hk'⟩
      · rfl
      · rw [e3] at hp
        exact unique _ _ _ _ c hj hk' hp hp'
    · rcases hset i' k1 hi' with ⟨rfl, rfl⟩ | ⟨hij', hk'⟩
      · rw [e3] at hp'
        exact unique _ _ _ _ c hk hj hp hp'
      · exact unique _ _ _ _ c hk hk' hp hp'
  · intro c r l hr hl h1 h2 h3
    obtain ⟨r0, h0, f1, f2, f3, f4, f5, f6⟩ := hback c r hr
    rw [f1] at hl
    have g1 : r0.stage ≠ .sent := by
      rcases f6 with f6 | f6
      · rw [← f6]; exact h1
      · rw [f6.2.1]; decide
    have g2 : r0.stage ≠ .queued := by
      rcases f6 with f6 | f6
      · rw [← f6]; exact h2
      · rw [f6.2.1]; decide
    have g3 : r0.stage = .running ∨ ¬ R c := by
      rcases f6 with f6 | f6
      · rw [← f6]; exact h3
      · exact .inl f6.2.1
    obtain ⟨i, k, hk, hp⟩ := handled c r0 l h0 hl g1 g2 g3
    by_cases hij : i = j
    · subst hij
      rw [hj] at hk
      cases hk
      exact ⟨i, k', hnew, by rw [e3]; exact hp⟩
    · exact ⟨i, k, by rw [hne i hij]; exact hk, hp⟩
  · intro c r hr hl
    obtain ⟨r0, h0, f1, f2, f3, f4, f5, f6⟩ := hback c r hr
    rw [f1] at hl
    have := unhandled c r0 h0 hl
    rcases f6 with f6 | f6
    · rw [f6]; exact this
    · exact absurd f6.2.1 this.2
  · intro c r hr
    obtain ⟨r0, h0, f1, f2, f3, f4, f5, f6⟩ := hback c r hr
    obtain ⟨k, x, fan, y, m1, m2, m3, m4, m5, m6, m7⟩ := made c r0 h0
    rw [f1, f2, f3, f4, f5]
    have hstage : r0.stage = .completed → r.stage = .completed := by
      intro hc
      rcases f6 with f6 | f6
      · rw [f6]; exact hc
      · rw [f6.2.1] at hc; cases hc
    by_cases hij : r0.job = j
    · rw [hij] at m1 ⊢
      rw [hj] at m1
      cases m1
      rcases m7 with ⟨rfl, m7⟩ | ⟨n, rfl⟩
      · refine ⟨k', x, fan, .finished, hnew, by rw [e2]; exact m2, m3, m4, m5, ?_, .inl ⟨rfl, hstage m7⟩⟩
        rw [e4]; exact hfin _ m6
      · rcases hrun _ n m6 with ⟨n', hn'⟩ | ⟨hf, hall, _⟩
        · exact ⟨k', x, fan, .running n', hnew, by rw [e2]; exact m2, m3, m4, m5, by rw [e4]; exact hn',
            .inr ⟨n', rfl⟩⟩
        · exact ⟨k', x, fan, .finished, hnew, by rw [e2]; exact m2, m3, m4, m5, by rw [e4]; exact hf,
            .inl ⟨rfl, hstage (hall c r0 h0 hij rfl)⟩⟩
    · refine ⟨k, x, fan, y, by rw [hne _ hij]; exact m1, m2, m3, m4, m5, m6, ?_⟩
      rcases m7 with ⟨rfl, m7⟩ | m7
      · exact .inl ⟨rfl, hstage m7⟩
      · exact .inr m7
  · intro i k j0 a it hk hp
    have hcore : ∀ (k0 : Job), s.jobs[i]? = some k0 → k0.parent = .action j0 a it →
        k.list = k0.list → k.engine = k0.engine → (k0.over = true → k.over = true) →
        j0 < i ∧ ∃ (k1 : Job) (x : Action) (y : Act), jobs'[j0]? = some k1 ∧
          (cfg.actions k1.list)[a]? = some x ∧ x.work = .list k.list ∧ it < x.iters ∧
          k.engine = k1.engine ∧ k1.acts[a]? = some y ∧
          (y = .finished ∧ k.over = true ∨ ∃ n, y = .running n) := by
      intro k0 hk0 hp0 hl he ho
      obtain ⟨hlt0, k1, x, y, m1, m2, m3, m4, m5, m6, m7⟩ := nested i k0 j0 a it hk0 hp0
      refine ⟨hlt0, ?_⟩
      rw [hl, he]
      by_cases hij : j0 = j
      · subst hij
        rw [hj] at m1
        cases m1
        rcases m7 with ⟨rfl, m7⟩ | ⟨n, rfl⟩
        · exact ⟨k', x, .finished, hnew, by rw [e2]; exact m2, m3, m4, by rw [e1]; exact m5,
            by rw [e4]; exact hfin _ m6, .inl ⟨rfl, ho m7⟩⟩
        · rcases hrun _ n m6 with ⟨n', hn'⟩ | ⟨hf, _, hall⟩
          · exact ⟨k', x, .running n', hnew, by rw [e2]; exact m2, m3, m4, by rw [e1]; exact m5,
              by rw [e4]; exact hn', .inr ⟨n', rfl⟩⟩
          · exact ⟨k', x, .finished, hnew, by rw [e2]; exact m2, m3, m4, by rw [e1]; exact m5,
              by rw [e4]; exact hf, .inl ⟨rfl, ho (hall i it k0 hk0 hp0)⟩⟩
      · refine ⟨k1, x, y, by rw [hne _ hij]; exact m1, m2, m3, m4, m5, m6, ?_⟩
        rcases m7 with ⟨rfl, m7⟩ | m7
        · exact .inl ⟨rfl, ho m7⟩
        · exact .inr m7
    rcases hset i k hk with ⟨rfl, rfl⟩ | ⟨hij, hk⟩
    · exact hcore job hj (by rw [← e3]; exact hp) e2 e1 (by rw [e6]; exact hmono)
    · exact hcore k hk hp rfl rfl id

/-- New RPCs. -/
theorem inv_addCalls {cfg : Config} {s : State} {q j a i : Nat} {targets : List Nat} {job : Job}
    {x : Action} {fan n : Nat} (h : Inv cfg R s) (hj : s.jobs[j]? = some job)
    (hx : (cfg.actions job.list)[a]? = some x) (hw : x.work = .rpc q fan) (hi : i < x.iters)
    (hs : ∀ t ∈ targets, cfg.servers q t = true) (hr : job.acts[a]? = some (.running n)) :
    Inv cfg R { s with calls := s.calls ++ newCalls q j a i targets } := by
  obtain ⟨may, len, over, early, left, parent, unique, handled, unhandled, made, nested⟩ := h
  have hback : ∀ (c : Nat) (r : Call), (s.calls ++ newCalls q j a i targets)[c]? = some r →
      s.calls[c]? = some r ∨ ∃ t ∈ targets, r = { rpc := q, target := t, job := j, action := a, iter := i } := by
    intro c r hr
    rw [List.getElem?_append] at hr
    split at hr
    · exact .inl hr
    · right
      have := List.mem_of_getElem? hr
      unfold newCalls at this
      obtain ⟨t, ht, rfl⟩ := List.mem_map.1 this
      exact ⟨t, ht, rfl⟩
  have hforth : ∀ (c : Nat) (r : Call), s.calls[c]? = some r →
      (s.calls ++ newCalls q j a i targets)[c]? = some r := by
    intro c r hr
    rw [List.getElem?_append_left (List.getElem?_eq_some_iff.1 hr).1]
    exact hr
  refine ⟨may, len, over, early, left, ?_, unique, ?_, ?_, ?_, nested⟩
  · intro j' k c hk hp
    obtain ⟨r, g1, g2⟩ := parent j' k c hk hp
    exact ⟨r, hforth c r g1, g2⟩
  · intro c r l hc hl h1 h2 h3
    rcases hback c r hc with hc | ⟨t, _, rfl⟩
    · exact handled c r l hc hl h1 h2 h3
    · exact absurd rfl h1
  · intro c r hc hl
    rcases hback c r hc with hc | ⟨t, _, rfl⟩
    · exact unhandled c r hc hl
    · exact ⟨by simp, by simp⟩
  · intro c r hc
    rcases hback c r hc with hc | ⟨t, ht, rfl⟩
    · exact made c r hc
    · exact ⟨job, x, fan, .running n, hj, hx, hw, hi, hs t ht, hr, .inr ⟨n, rfl⟩⟩

/-- A list that an action runs. -/
theorem inv_addNested {cfg : Config} {s : State} {l j a i : Nat} {job : Job} {x : Action} {n : Nat}
    (h : Inv cfg R s) (hj : s.jobs[j]? = some job) (hx : (cfg.actions job.list)[a]? = some x)
    (hw : x.work = .list l) (hi : i < x.iters) (hr : job.acts[a]? = some (.running n)) :
    Inv cfg R { s with jobs := s.jobs ++ [newJob cfg job.engine l (.action j a i)] } := by
  obtain ⟨may, len, over, early, left, parent, unique, handled, unhandled, made, nested⟩ := h
  have hac := @newJob_acts cfg job.engine l (.action j a i)
  have hln := newJob_length cfg job.engine l (.action j a i)
  have h1 : (newJob cfg job.engine l (.action j a i)).parent = .action j a i := rfl
  have h2 : (newJob cfg job.engine l (.action j a i)).engine = job.engine := rfl
  have h3 : (newJob cfg job.engine l (.action j a i)).list = l := rfl
  have h4 : (newJob cfg job.engine l (.action j a i)).over = false := rfl
  have h5 : (newJob cfg job.engine l (.action j a i)).early = none := rfl
  have hlt : j < s.jobs.length := (List.getElem?_eq_some_iff.1 hj).1
  have hmay : MayRun cfg job.engine l := .nested (may j job hj) (List.mem_of_getElem? hx) hw
  have hja : ∀ (j' : Nat) (k : Job), (s.jobs ++ [newJob cfg job.engine l (.action j a i)])[j']? = some k →
      s.jobs[j']? = some k ∨ (j' = s.jobs.length ∧ k = newJob cfg job.engine l (.action j a i)) :=
    fun j' k => jobs_append
  have hold : ∀ (j' : Nat) (k : Job), s.jobs[j']? = some k →
      (s.jobs ++ [newJob cfg job.engine l (.action j a i)])[j']? = some k := by
    intro j' k hk
    rw [List.getElem?_append_left (List.getElem?_eq_some_iff.1 hk).1]
    exact hk
  generalize newJob cfg job.engine l (.action j a i) = nj at *
  generalize s.jobs ++ [nj] = jobs' at *
  refine ⟨?_, ?_, ?_, ?_, ?_, ?_, ?_, ?_, unhandled, ?_, ?_⟩
  · intro j' k hk
    rcases hja j' k hk with hk | ⟨_, rfl⟩
    · exact may j' k hk
    · rw [h2, h3]; exact hmay
  · intro j' k hk
    rcases hja j' k hk with hk | ⟨_, rfl⟩
    · exact len j' k hk
    · rw [hln, h3]
  · intro j' k hk
    rcases hja j' k hk with hk | ⟨_, rfl⟩
    · exact over j' k hk
    · intro h; rw [h4] at h; cases h
  · intro j' k a' hk
    rcases hja j' k hk with hk | ⟨_, rfl⟩
    · exact early j' k a' hk
    · intro h; rw [h5] at h; cases h
  · intro j' k a' n' x' hk hrun
    rcases hja j' k hk with hk | ⟨_, rfl⟩
    · exact left j' k a' n' x' hk hrun
    · have := hac hrun; cases this
  · intro j' k c hk hp
    rcases hja j' k hk with hk | ⟨_, rfl⟩
    · exact parent j' k c hk hp
    · rw [h1] at hp; cases hp
  · intro i1 i2 k1 k2 c hi1 hi2 hp1 hp2
    rcases hja i1 k1 hi1 with hk1 | ⟨_, rfl⟩
    · rcases hja i2 k2 hi2 with hk2 | ⟨_, rfl⟩
      · exact unique i1 i2 k1 k2 c hk1 hk2 hp1 hp2
      · rw [h1] at hp2; cases hp2
    · rw [h1] at hp1; cases hp1
  · intro c r l' hc e1 e2 e3 e4
    obtain ⟨j', k, hk, hp⟩ := handled c r l' hc e1 e2 e3 e4
    exact ⟨j', k, hold _ _ hk, hp⟩
  · intro c r hc
    obtain ⟨k, x', f, y, e1, e2⟩ := made c r hc
    exact ⟨k, x', f, y, hold _ _ e1, e2⟩
  · intro j' k j0 a' i' hk hp
    rcases hja j' k hk with hk | ⟨e, rfl⟩
    · obtain ⟨e0, k', x', y, e1, e2⟩ := nested j' k j0 a' i' hk hp
      exact ⟨e0, k', x', y, hold _ _ e1, e2⟩
    · rw [h1] at hp
      cases hp
      exact ⟨by omega, job, x, .running n, hold _ _ hj, hx, by rw [h3]; exact hw, hi, h2, hr,
        .inr ⟨n, rfl⟩⟩

/-- If no iteration is open, all that the iterations began has ended. -/
theorem open_zero {s : State} {j a iters : Nat} (h : openIterations s j a iters = 0) :
    (∀ (c : Nat) (r : Call), s.calls[c]? = some r → r.job = j → r.action = a → r.iter < iters →
      r.stage = .completed) ∧
    ∀ (j' i : Nat) (k : Job), s.jobs[j']? = some k → k.parent = .action j a i → i < iters →
      k.over = true := by
  unfold openIterations at h
  rw [List.countP_eq_zero] at h
  constructor
  · intro c r hc hj ha hi
    have := h r.iter (List.mem_range.2 hi)
    apply Classical.byContradiction
    intro hn
    apply this
    unfold busy
    rw [Bool.or_eq_true]
    left
    rw [List.any_eq_true]
    exact ⟨r, List.mem_of_getElem? hc, by simp [hj, ha, hn]⟩
  · intro j' i k hk hp hi
    have := h i (List.mem_range.2 hi)
    apply Classical.byContradiction
    intro hn
    apply this
    unfold busy
    rw [Bool.or_eq_true]
    right
    rw [List.any_eq_true]
    exact ⟨k, List.mem_of_getElem? hk, by simpa [hp] using hn⟩

theorem open_pos {s : State} {j a iters : Nat} (h : 0 < openIterations s j a iters) :
    (∃ (c : Nat) (r : Call), s.calls[c]? = some r ∧ r.job = j ∧ r.action = a ∧ r.stage ≠ .completed) ∨
    ∃ (j' i : Nat) (k : Job), s.jobs[j']? = some k ∧ k.parent = .action j a i ∧ k.over = false := by
  unfold openIterations at h
  rw [List.countP_pos_iff] at h
  obtain ⟨i, _, hb⟩ := h
  unfold busy at hb
  rw [Bool.or_eq_true, List.any_eq_true, List.any_eq_true] at hb
  rcases hb with ⟨r, hr, hg⟩ | ⟨k, hk, hg⟩
  · left
    obtain ⟨c, hc⟩ := List.getElem?_of_mem hr
    simp at hg
    exact ⟨c, r, hc, hg.1.1.1, hg.1.1.2, hg.2⟩
  · right
    obtain ⟨j', hj'⟩ := List.getElem?_of_mem hk
    simp at hg
    exact ⟨j', i, k, hj', hg.1, hg.2⟩

theorem set_get {acts : List Act} {a b : Nat} {y z : Act} (h : (acts.set a z)[b]? = some y) :
    (a = b ∧ y = z) ∨ (a ≠ b ∧ acts[b]? = some y) := by
  by_cases he : a = b
  · subst he
    rw [List.getElem?_set_self'] at h
    cases hh : acts[a]? with
    | none => rw [hh] at h; simp at h
    | some w => rw [hh] at h; simp at h; exact .inl ⟨rfl, h.symm⟩
  · rw [List.getElem?_set_ne he] at h
    exact .inr ⟨he, h⟩

theorem set_here {acts : List Act} {a : Nat} {y : Act} (z : Act) (h : acts[a]? = some y) :
    (acts.set a z)[a]? = some z := by
  have := (List.getElem?_eq_some_iff.1 h).1
  simp [this]

theorem inv_start {cfg : Config} {s s' : State} {j a : Nat} (h : Inv cfg R s)
    (hs : step cfg s (.start j a) = some s') : Inv cfg R s' := by
  obtain ⟨job, x, hj, hx, hw, ho, hready, hd, rfl⟩ := step_start hs
  apply inv_set (job.acts.set a (.running x.iters)) (designate cfg job x a) job.over s.calls h hj
  · simp
  · intro hh; rw [ho] at hh; cases hh
  · intro b hb
    unfold designate at hb
    split at hb
    · cases hb
      exact ⟨_, set_here _ hw, by simp⟩
    · obtain ⟨y, h1, h2⟩ := h.early j job b hj hb
      by_cases he : a = b
      · subst he; exact ⟨_, set_here _ hw, by simp⟩
      · exact ⟨y, by rw [List.getElem?_set_ne he]; exact h1, h2⟩
  · intro b n y hb hy
    rcases set_get hb with ⟨rfl, he⟩ | ⟨_, hb⟩
    · cases he
      rw [hx] at hy
      cases hy
      exact Nat.le_refl _
    · exact h.left j job b n y hj hb hy
  · exact id
  · intro b hb
    by_cases he : a = b
    · subst he; rw [hw] at hb; cases hb
    · rw [List.getElem?_set_ne he]; exact hb
  · intro b n hb
    by_cases he : a = b
    · subst he; rw [hw] at hb; cases hb
    · exact .inl ⟨n, by rw [List.getElem?_set_ne he]; exact hb⟩
  · left
    refine ⟨rfl, ?_⟩
    unfold Unanswered
    dsimp only
    refine and_congr Iff.rfl ?_
    constructor
    · intro hall b y hb hy
      by_cases he : a = b
      · subst he; rw [hw] at hy; cases hy; rfl
      · apply hall b y
        · unfold designate
          rw [if_neg]
          · exact hb
          · intro hh; rw [hb] at hh; cases hh.1
        · rw [List.getElem?_set_ne he]; exact hy
    · intro hall b y hb hy
      rcases set_get hy with ⟨rfl, rfl⟩ | ⟨hne, hy⟩
      · rfl
      · unfold designate at hb
        split at hb
        · cases hb; exact absurd rfl hne
        · exact hall b y hb hy

theorem inv_skip {cfg : Config} {s s' : State} {j a : Nat} (h : Inv cfg R s)
    (hs : step cfg s (.skip j a) = some s') : Inv cfg R s' := by
  obtain ⟨job, x, hj, hx, hw, ho, hready, hd, rfl⟩ := step_skip hs
  apply inv_set (job.acts.set a .skipped) (designate cfg job x a) job.over _ h hj
  · simp
  · intro hh; rw [ho] at hh; cases hh
  · intro b hb
    unfold designate at hb
    split at hb
    · cases hb
      exact ⟨_, set_here _ hw, by simp⟩
    · obtain ⟨y, h1, h2⟩ := h.early j job b hj hb
      by_cases he : a = b
      · subst he; exact ⟨_, set_here _ hw, by simp⟩
      · exact ⟨y, by rw [List.getElem?_set_ne he]; exact h1, h2⟩
  · intro b n y hb hy
    rcases set_get hb with ⟨rfl, he⟩ | ⟨_, hb⟩
    · cases he
    · exact h.left j job b n y hj hb hy
  · exact id
  · intro b hb
    by_cases he : a = b
    · subst he; rw [hw] at hb; cases hb
    · rw [List.getElem?_set_ne he]; exact hb
  · intro b n hb
    by_cases he : a = b
    · subst he; rw [hw] at hb; cases hb
    · exact .inl ⟨n, by rw [List.getElem?_set_ne he]; exact hb⟩
  · have hnot : job.early ≠ some a := by
      intro he
      obtain ⟨y, h1, h2⟩ := h.early j job a hj he
      rw [hw] at h1
      cases h1
      exact h2 rfl
    by_cases hdes : designate cfg job x a = some a
    · rw [if_pos hdes]
      right
      have hnone : job.early = none := by
        unfold designate at hdes
        split at hdes
        · next hh => exact hh.1
        · exact absurd hdes hnot
      refine ⟨rfl, ⟨ho, ?_⟩, ?_⟩
      · intro b y hb
        rw [hnone] at hb
        cases hb
      · rintro ⟨_, hall⟩
        have := hall a .skipped hdes (set_here _ hw)
        cases this
    · rw [if_neg hdes]
      left
      refine ⟨rfl, ?_⟩
      have hsame : designate cfg job x a = job.early := by
        unfold designate at hdes ⊢
        split
        · next hh => rw [if_pos hh] at hdes; exact absurd rfl hdes
        · rfl
      unfold Unanswered
      dsimp only
      rw [hsame]
      refine and_congr Iff.rfl ?_
      constructor
      · intro hall b y hb hy
        apply hall b y hb
        rw [List.getElem?_set_ne]
        · exact hy
        · intro he; subst he; exact hnot hb
      · intro hall b y hb hy
        rcases set_get hy with ⟨rfl, rfl⟩ | ⟨hne, hy⟩
        · exact absurd hb hnot
        · exact hall b y hb hy

/-- An action that has no open iterations ends. -/
theorem inv_ended {cfg : Config} {s : State} {j a n : Nat} {job : Job} {x : Action} (h : Inv cfg R s)
    (hj : s.jobs[j]? = some job) (hx : (cfg.actions job.list)[a]? = some x)
    (hw : job.acts[a]? = some (.running n)) (hopen : openIterations s j a x.iters = 0) :
    Inv cfg R {
      jobs := s.jobs.set j { job with acts := job.acts.set a .finished }
      calls := if job.early = some a then answer s.calls job.parent else s.calls } := by
  obtain ⟨hz1, hz2⟩ := open_zero hopen
  have ho : job.over = false := by
    cases hb : job.over with
    | false => rfl
    | true => have := h.over j job hj hb a _ hw; cases this
  apply inv_set (job.acts.set a .finished) job.early job.over _ h hj
  · simp
  · intro hh; rw [ho] at hh; cases hh
  · intro b hb
    obtain ⟨y, h1, h2⟩ := h.early j job b hj hb
    by_cases he : a = b
    · subst he; exact ⟨_, set_here _ hw, by simp⟩
    · exact ⟨y, by rw [List.getElem?_set_ne he]; exact h1, h2⟩
  · intro b n y hb hy
    rcases set_get hb with ⟨rfl, he⟩ | ⟨_, hb⟩
    · cases he
    · exact h.left j job b n y hj hb hy
  · exact id
  · intro b hb
    by_cases he : a = b
    · subst he; exact set_here _ hw
    · rw [List.getElem?_set_ne he]; exact hb
  · intro b n hb
    by_cases he : a = b
    · subst he
      right
      refine ⟨set_here _ hw, ?_, ?_⟩
      · intro c r hc hrj hra
        obtain ⟨k, y, f, z, m1, m2, m3, m4, _⟩ := h.made c r hc
        rw [hrj, hj] at m1
        cases m1
        rw [hra, hx] at m2
        cases m2
        exact hz1 c r hc hrj hra m4
      · intro j' i k hk hp
        obtain ⟨_, k', y, z, m1, m2, m3, m4, _⟩ := h.nested j' k j a i hk hp
        rw [hj] at m1
        cases m1
        rw [hx] at m2
        cases m2
        exact hz2 j' i k hk hp m4
    · exact .inl ⟨n, by rw [List.getElem?_set_ne he]; exact hb⟩
  · by_cases he : job.early = some a
    · rw [if_pos he]
      right
      refine ⟨rfl, ⟨ho, ?_⟩, ?_⟩
      · intro b y hb hy
        rw [he] at hb
        cases hb
        rw [hw] at hy
        cases hy
        rfl
      · rintro ⟨_, hall⟩
        have := hall a .finished he (set_here _ hw)
        cases this
    · rw [if_neg he]
      left
      refine ⟨rfl, ?_⟩
      unfold Unanswered
      dsimp only
      refine and_congr Iff.rfl ?_
      constructor
      · intro hall b y hb hy
        apply hall b y hb
        rw [List.getElem?_set_ne]
        · exact hy
        · intro hab; subst hab; exact he hb
      · intro hall b y hb hy
        rcases set_get hy with ⟨rfl, rfl⟩ | ⟨hne, hy⟩
        · exact absurd hb he
        · exact hall b y hb hy

theorem inv_finish {cfg : Config} {s s' : State} {j a : Nat} (h : Inv cfg R s)
    (hs : step cfg s (.finish j a) = some s') : Inv cfg R s' := by
  obtain ⟨job, x, hj, hx, hw, hopen, rfl⟩ := step_finish hs
  exact inv_ended h hj hx hw hopen

theorem inv_endJob {cfg : Config} {s s' : State} {j : Nat} (h : Inv cfg R s)
    (hs : step cfg s (.endJob j) = some s') : Inv cfg R s' := by
  obtain ⟨job, hj, ho, hall, rfl⟩ := step_endJob hs
  apply inv_set job.acts job.early true _ h hj
  · rfl
  · intro _ b y hy; exact hall y (List.mem_of_getElem? hy)
  · intro b hb; exact h.early j job b hj hb
  · intro b n y; exact h.left j job b n y hj
  · intro _; rfl
  · intro b hb; exact hb
  · intro b n hb; exact .inl ⟨n, hb⟩
  · cases he : job.early with
    | none =>
      rw [if_pos rfl]
      right
      refine ⟨rfl, ⟨ho, ?_⟩, ?_⟩
      · intro b y hb; rw [he] at hb; cases hb
      · rintro ⟨hh, _⟩; cases hh
    | some b =>
      rw [if_neg (by simp)]
      left
      refine ⟨rfl, ?_⟩
      constructor
      · rintro ⟨hh, _⟩; cases hh
      · rintro ⟨_, hh⟩
        obtain ⟨y, h1, _⟩ := h.early j job b hj he
        have h2 := hh b y he h1
        rw [hall y (List.mem_of_getElem? h1)] at h2
        cases h2

theorem inv_iterate {cfg : Config} {s s' : State} {j a : Nat} {targets : List Nat} (h : Inv cfg R s)
    (hs : step cfg s (.iterate j a targets) = some s') : Inv cfg R s' := by
  obtain ⟨job, x, left, hj, hx, hw, hcase⟩ := step_iterate hs
  have ho : job.over = false := by
    cases hb : job.over with
    | false => rfl
    | true => have := h.over j job hj hb a _ hw; cases this
  have hle : left + 1 ≤ x.iters := h.left j job a (left + 1) x hj hw hx
  have hI : Inv cfg R { s with jobs := s.jobs.set j { job with acts := job.acts.set a (.running left) } } := by
    apply inv_set (job.acts.set a (.running left)) job.early job.over s.calls h hj
    · simp
    · intro hh; rw [ho] at hh; cases hh
    · intro b hb
      obtain ⟨y, h1, h2⟩ := h.early j job b hj hb
      by_cases he : a = b
      · subst he; exact ⟨_, set_here _ hw, by simp⟩
      · exact ⟨y, by rw [List.getElem?_set_ne he]; exact h1, h2⟩
    · intro b n y hb hy
      rcases set_get hb with ⟨rfl, he⟩ | ⟨_, hb⟩
      · cases he
        rw [hx] at hy
        cases hy
        omega
      · exact h.left j job b n y hj hb hy
    · exact id
    · intro b hb
      by_cases he : a = b
      · subst he; rw [hw] at hb; cases hb
      · rw [List.getElem?_set_ne he]; exact hb
    · intro b n hb
      by_cases he : a = b
      · subst he; exact .inl ⟨left, set_here _ hw⟩
      · exact .inl ⟨n, by rw [List.getElem?_set_ne he]; exact hb⟩
    · left
      refine ⟨rfl, ?_⟩
      unfold Unanswered
      dsimp only
      refine and_congr Iff.rfl ?_
      constructor
      · intro hall b y hb hy
        by_cases he : a = b
        · subst he; rw [hw] at hy; cases hy; rfl
        · exact hall b y hb (by rw [List.getElem?_set_ne he]; exact hy)
      · intro hall b y hb hy
        rcases set_get hy with ⟨rfl, rfl⟩ | ⟨hne, hy⟩
        · rfl
        · exact hall b y hb hy
  have hj' : (s.jobs.set j { job with acts := job.acts.set a (.running left) })[j]? =
      some { job with acts := job.acts.set a (.running left) } := by
    have := (List.getElem?_eq_some_iff.1 hj).1
    simp [this]
  have hrun : (job.acts.set a (.running left))[a]? = some (.running left) := set_here _ hw
  rcases hcase with ⟨q, hq, ht, rfl⟩ | ⟨l, hl, rfl⟩ | ⟨_, rfl⟩
  · exact inv_addCalls hI hj' hx hq (by omega) ht hrun
  · exact inv_addNested (job := { job with acts := job.acts.set a (.running left) }) hI hj' hx hl
      (by omega) hrun
  · exact hI

theorem inv_step {cfg : Config} {s s' : State} {op : Op} (h : Inv cfg R s)
    (hs : step cfg s op = some s') : Inv cfg R s' := by
  cases op with
  | start j a => exact inv_start h hs
  | skip j a => exact inv_skip h hs
  | iterate j a t => exact inv_iterate h hs
  | finish j a => exact inv_finish h hs
  | deliver c => exact inv_deliver h hs
  | dispatch c => exact inv_dispatch h hs
  | endJob j => exact inv_endJob h hs
  | complete c => exact inv_complete h hs

theorem inv_initial (cfg : Config) : Inv cfg R (initial cfg) := by
  have hjob : ∀ (j : Nat) (k : Job), (initial cfg).jobs[j]? = some k →
      ∃ r ∈ cfg.roots, k = newJob cfg r.1 r.2 .root := by
    intro j k hk
    have := List.mem_of_getElem? hk
    obtain ⟨r, hr, rfl⟩ := List.mem_map.1 this
    exact ⟨r, hr, rfl⟩
  have hnc : ∀ c : Nat, (initial cfg).calls[c]? = none := by intro c; simp [initial]
  refine ⟨?_, ?_, ?_, ?_, ?_, ?_, ?_, ?_, ?_, ?_, ?_⟩
  · intro j k hk
    obtain ⟨r, hr, rfl⟩ := hjob j k hk
    exact .root hr
  · intro j k hk
    obtain ⟨r, hr, rfl⟩ := hjob j k hk
    exact newJob_length _ _ _ _
  · intro j k hk ho
    obtain ⟨r, hr, rfl⟩ := hjob j k hk
    cases ho
  · intro j k a hk ho
    obtain ⟨r, hr, rfl⟩ := hjob j k hk
    cases ho
  · intro j k a n x hk hr
    obtain ⟨r, _, rfl⟩ := hjob j k hk
    have := newJob_acts hr
    cases this
  · intro j k c hk hp
    obtain ⟨r, _, rfl⟩ := hjob j k hk
    cases hp
  · intro i j k k' c hk _ hp
    obtain ⟨r, _, rfl⟩ := hjob i k hk
    cases hp
  · intro c r l hc; rw [hnc] at hc; cases hc
  · intro c r hc; rw [hnc] at hc; cases hc
  · intro c r hc; rw [hnc] at hc; cases hc
  · intro j k j' a i hk hp
    obtain ⟨r, _, rfl⟩ := hjob j k hk
    cases hp

theorem inv_run {cfg : Config} {ops : List Op} {s : State} (h : TrafficRun cfg ops s) :
    Inv cfg (fun _ => False) s :=
  run_induction (P := fun _ s => Inv cfg (fun _ => False) s) (inv_initial cfg) (fun _ _ _ _ _ hi hs => inv_step hi hs) h

end Distbench.Traffic
