import Verif.Spec.Overload

/-! Properties of the protection against too many threads. -/

namespace Distbench.Overload
open Spec

/-! ### Lemmas -/

theorem set_perm {l : List RTh} {i : Nat} {a : RTh} (p : RTh → Bool) (b : RTh) (h : l[i]? = some a) :
    (l.set i b).countP p + (if p a then 1 else 0) = l.countP p + (if p b then 1 else 0) := by
  induction l generalizing i with
  | nil => simp at h
  | cons x l ih =>
    cases i with
    | zero =>
      simp at h
      subst h
      simp only [List.set_cons_zero, List.countP_cons]
      omega
    | succ i =>
      simp at h
      have := ih h
      simp only [List.set_cons_succ, List.countP_cons]
      omega

/-- The invariant: `current` counts the live threads, and every decision is waiting to be carried
out, or being, or was (at most one call each). -/
structure Inv (s : State) : Prop where
  current : s.current = liveThreads s
  calls : s.calls.length + s.threads.countP (fun t => t = .flagged) +
    s.threads.countP (fun t => t = .calling) ≤ s.decisions.length
  exceed : ∀ d ∈ s.decisions, d.1 < d.2 ∧ d.1 ≠ 0

theorem inv_step {s s' : State} {op : Op} (h : Inv s) (hs : step s op = some s') : Inv s' := by
  obtain ⟨h1, h2, h3⟩ := h
  unfold liveThreads at h1
  cases op with
  | threshold n => simp only [step, setThreshold] at hs; cases hs; exact ⟨h1, h2, h3⟩
  | callback c => simp only [step, setCallback] at hs; cases hs; exact ⟨h1, h2, h3⟩
  | start =>
    simp only [step, startThread] at hs
    cases hs
    split
    · rename_i hg
      refine ⟨?_, ?_, ?_⟩
      · simp only [liveThreads, List.countP_append, List.countP_cons, List.countP_nil]
        rw [h1]
        simp
      · simp only [List.countP_append, List.countP_cons, List.countP_nil, List.length_append, List.length_singleton]
        simp at h2 ⊢
        omega
      · intro d hd
        rcases List.mem_append.1 hd with hd | hd
        · exact h3 d hd
        · simp at hd
          subst hd
          exact ⟨hg.1, hg.2.1⟩
    · refine ⟨?_, ?_, h3⟩
      · simp only [liveThreads, List.countP_append, List.countP_cons, List.countP_nil]
        rw [h1]
        simp
      · simp only [List.countP_append, List.countP_cons, List.countP_nil]
        simp at h2 ⊢
        omega
  | check i =>
    simp only [step] at hs
    split at hs
    · rename_i ht
      cases hs
      cases s.callback.isSome
      · have e1 := set_perm (fun t => decide (t ≠ .ended)) .working ht
        have e2 := set_perm (fun t => decide (t = .flagged)) .working ht
        have e3 := set_perm (fun t => decide (t = .calling)) .working ht
        simp at e1 e2 e3 h2
        refine ⟨?_, ?_, h3⟩
        · simp [liveThreads]; rw [h1]; simp [e1]
        · simp; omega
      · have e1 := set_perm (fun t => decide (t ≠ .ended)) .calling ht
        have e2 := set_perm (fun t => decide (t = .flagged)) .calling ht
        have e3 := set_perm (fun t => decide (t = .calling)) .calling ht
        simp at e1 e2 e3 h2
        refine ⟨?_, ?_, h3⟩
        · simp [liveThreads]; rw [h1]; simp [e1]
        · simp; omega
    · cases hs
  | call i =>
    simp only [step] at hs
    split at hs
    · rename_i ht
      split at hs
      · cases hs
        have e1 := set_perm (fun t => decide (t ≠ .ended)) .working ht
        have e2 := set_perm (fun t => decide (t = .flagged)) .working ht
        have e3 := set_perm (fun t => decide (t = .calling)) .working ht
        simp at e1 e2 e3 h2
        refine ⟨?_, ?_, h3⟩
        · simp [liveThreads]; rw [h1]; simp [e1]
        · simp; omega
      · cases hs
        exact ⟨h1, h2, h3⟩
    · cases hs
  | finish i =>
    simp only [step] at hs
    split at hs
    · rename_i ht
      cases hs
      have e1 := set_perm (fun t => decide (t ≠ .ended)) .ended ht
      have e2 := set_perm (fun t => decide (t = .flagged)) .ended ht
      have e3 := set_perm (fun t => decide (t = .calling)) .ended ht
      simp at e1 e2 e3 h2 h1
      refine ⟨?_, ?_, h3⟩
      · simp [liveThreads]; omega
      · simp; omega
    · cases hs

theorem inv_run {ops : List Op} {s s' : State} (h : Inv s) (hr : run s ops = some s') : Inv s' := by
  induction ops generalizing s with
  | nil => simp only [run] at hr; cases hr; exact h
  | cons op ops ih =>
    simp only [run] at hr
    split at hr
    · rename_i s1 h1; exact ih (inv_step h h1) hr
    · cases hr

theorem inv_new : Inv {} := ⟨rfl, by simp, by simp⟩

/-- What operations that leave the threshold alone do to it. -/
theorem threshold_step {s s' : State} {op : Op} (hop : ¬ SetsThreshold op) (hs : step s op = some s') :
    (s'.max = s.max ∧ s'.decisions = s.decisions) ∨
    (s'.max = 0 ∧ s.max ≠ 0 ∧ s'.decisions = s.decisions ++ [(s.max, s.current + 1)] ∧ s.max < s.current + 1) := by
  cases op with
  | threshold n => exact absurd trivial hop
  | callback c => simp only [step, setCallback] at hs; cases hs; exact Or.inl ⟨rfl, rfl⟩
  | start =>
    simp only [step, startThread] at hs
    cases hs
    split
    · rename_i hg; exact Or.inr ⟨rfl, hg.2.1, rfl, hg.1⟩
    · exact Or.inl ⟨rfl, rfl⟩
  | check i =>
    simp only [step] at hs
    split at hs
    · cases hs; exact Or.inl ⟨rfl, rfl⟩
    · cases hs
  | call i =>
    simp only [step] at hs
    split at hs
    · split at hs <;> cases hs <;> exact Or.inl ⟨rfl, rfl⟩
    · cases hs
  | finish i =>
    simp only [step] at hs
    split at hs
    · cases hs; exact Or.inl ⟨rfl, rfl⟩
    · cases hs

theorem threshold_run {ops : List Op} {s s' : State} (hops : ∀ op ∈ ops, ¬ SetsThreshold op)
    (hr : run s ops = some s') :
    (s'.max = s.max ∧ s'.decisions = s.decisions) ∨
    (s'.max = 0 ∧ s.max ≠ 0 ∧ ∃ live, s'.decisions = s.decisions ++ [(s.max, live)] ∧ s.max < live) := by
  induction ops generalizing s with
  | nil => simp only [run] at hr; cases hr; exact Or.inl ⟨rfl, rfl⟩
  | cons op ops ih =>
    simp only [run] at hr
    split at hr
    · rename_i s1 h1
      have hrest := ih (fun o ho => hops o (by simp [ho])) hr
      rcases threshold_step (hops op (by simp)) h1 with ⟨e1, e2⟩ | ⟨e1, e2, e3, e4⟩
      · rw [e1, e2] at hrest
        exact hrest
      · rcases hrest with ⟨f1, f2⟩ | ⟨_, f2, _⟩
        · exact Or.inr ⟨by rw [f1, e1], e2, _, by rw [f2, e3], e4⟩
        · exact absurd e1 f2
    · cases hr

/-! ### C49 -/

/-- C49.  After the threshold is set, and until it is set again, it is decided at most once to call the
callback; if so, more registered threads than the threshold were live, and the threshold was not 0. -/
theorem C49_once {ops ops' : List Op} {n : Int} {s s' : State} (hr : run {} ops = some s)
    (hops : ∀ op ∈ ops', ¬ SetsThreshold op) (hr' : run (setThreshold s n) ops' = some s') :
    s'.decisions = s.decisions ∨
    n ≠ 0 ∧ ∃ live, n < live ∧ s'.decisions = s.decisions ++ [(n, live)] := by
  rcases threshold_run hops hr' with ⟨_, h⟩ | ⟨_, h1, live, h2, h3⟩
  · exact Or.inl h
  · exact Or.inr ⟨h1, live, h3, h2⟩

/-- C49.  A decision is made only when a thread starts that makes the number of live registered threads
exceed the threshold. -/
theorem C49_exceeds {ops : List Op} {s s' : State} {op : Op} {n live : Int} (hr : run {} ops = some s)
    (hs : step s op = some s') (hd : s'.decisions = s.decisions ++ [(n, live)]) :
    op = .start ∧ live = liveThreads s' ∧ n = s.max ∧ n < live := by
  have inv := inv_run inv_new hr
  have inv' := inv_step inv hs
  cases op with
  | start =>
    simp only [step, startThread] at hs
    cases hs
    split at hd
    · rename_i hg
      have hc := inv'.current
      rw [if_pos hg] at hc ⊢
      simp at hd
      obtain ⟨rfl, rfl⟩ := hd
      exact ⟨rfl, hc, rfl, hg.1⟩
    · simp at hd
  | _ =>
    exfalso
    simp only [step, setThreshold, setCallback] at hs
    (repeat' split at hs) <;> first
      | (simp only [Option.some.injEq] at hs; subst hs; simp at hd)
      | cases hs

/-- C49.  There are never more calls than decisions. -/
theorem C49_calls {ops : List Op} {s : State} (hr : run {} ops = some s) :
    s.calls.length ≤ s.decisions.length := by
  have := (inv_run inv_new hr).calls
  omega

/-- A run with two thresholds. -/
def sampleOps : List Op :=
  [.callback 5, .threshold 1, .start, .start, .start, .check 1, .call 1, .finish 0, .threshold 3, .start, .start, .check 4]

example : ∃ s, run {} sampleOps = some s ∧ s.decisions = [(1, 2), (3, 4)] ∧ s.calls = [5] ∧
    s.threads = [.ended, .working, .working, .working, .calling] := by
  refine ⟨_, rfl, ?_⟩
  decide +kernel

/-! ### C123: exceeding the threshold is noticed -/

theorem callback_step {s s' : State} {op : Op} (hop : ¬ SetsThreshold op) (hcb : s.callback ≠ none)
    (hs : step s op = some s') : s'.callback ≠ none := by
  cases op with
  | threshold n => exact absurd trivial hop
  | callback c => simp only [step, setCallback] at hs; cases hs; simp
  | start =>
    simp only [step, startThread] at hs
    cases hs
    split <;> exact hcb
  | check i =>
    simp only [step] at hs
    split at hs
    · cases hs; exact hcb
    · cases hs
  | call i =>
    simp only [step] at hs
    split at hs
    · split at hs <;> cases hs <;> exact hcb
    · cases hs
  | finish i =>
    simp only [step] at hs
    split at hs
    · cases hs; exact hcb
    · cases hs

theorem callback_run {ops : List Op} {s s' : State} (hops : ∀ op ∈ ops, ¬ SetsThreshold op)
    (hcb : s.callback ≠ none) (hr : run s ops = some s') : s'.callback ≠ none := by
  induction ops generalizing s with
  | nil => simp only [run] at hr; cases hr; exact hcb
  | cons op ops ih =>
    simp only [run] at hr
    split at hr
    · rename_i s1 h1
      exact ih (fun o ho => hops o (by simp [ho])) (callback_step (hops op (by simp)) hcb h1) hr
    · cases hr

/-- C123.  If a callback is set and the threshold is `n > 0`, then no thread that makes more than `n` live
goes unnoticed: after the threshold is set, the first thread start that exceeds it is decided on,
whatever happened before. -/
theorem C123_noticed {ops ops' : List Op} {n : Int} {s s' s'' : State} (hr : run {} ops = some s)
    (hn : 0 < n) (hops : ∀ op ∈ ops', ¬ SetsThreshold op) (hr' : run (setThreshold s n) ops' = some s')
    (hcb0 : s.callback ≠ none) (hs : step s' .start = some s'') (hover : n < liveThreads s'') :
    ∃ live, s''.decisions = s.decisions ++ [(n, live)] ∧ n < live := by
  have inv' : Inv s' := by
    have : Inv (setThreshold s n) := inv_step (op := .threshold n) (inv_run inv_new hr) rfl
    exact inv_run this hr'
  have inv'' := inv_step inv' hs
  have hcb : s'.callback ≠ none := by
    refine callback_run hops ?_ hr'
    simp only [setThreshold]
    rw [if_neg (by omega)]
    exact hcb0
  rcases threshold_run hops hr' with ⟨h1, h2⟩ | ⟨_, _, live, h2, h3⟩
  · -- not decided before
    have hmax : s'.max = n := h1
    have hc := inv''.current
    simp only [step, startThread] at hs
    cases hs
    split
    · rename_i hg
      refine ⟨s'.current + 1, ?_, ?_⟩
      · rw [← hmax, ← (show s'.decisions = s.decisions from h2)]
      · rw [← hmax]; exact hg.1
    · rename_i hg
      exfalso
      rw [if_neg hg] at hc hover
      apply hg
      refine ⟨?_, ?_, ?_⟩
      · rw [hmax]
        have hc' : s'.current + 1 = _ := hc
        rw [hc']
        exact hover
      · rw [hmax]; omega
      · cases hcc : s'.callback with
        | none => exact absurd hcc hcb
        | some c => rfl
  · -- decided before; a start adds no second decision
    rename_i hzero hne
    refine ⟨live, ?_, h3⟩
    rcases threshold_step (op := .start) (by exact id) hs with ⟨_, e2⟩ | ⟨_, e2, _⟩
    · rw [e2]; exact h2
    · exact absurd hzero e2

/-- A run in which the first exceeding start is noticed. -/
example : ∃ (s s' s'' : State), run {} [.callback 5, .threshold 9, .start] = some s ∧
    run (setThreshold s 2) [.start] = some s' ∧ s.callback ≠ none ∧ step s' .start = some s'' ∧
    2 < liveThreads s'' := by
  refine ⟨_, _, _, rfl, rfl, by decide +kernel, rfl, by decide +kernel⟩

/-! ### C124: the callback is there when it is called -/

/-- Missing from the full property ("at all times"): configuration between a thread's check and its
call, see `C124_broken`.  If nothing is configured any more once a thread has been flagged, the
callback called is the configured one. -/
theorem C124_callback_partial {ops ops' : List Op} {s s' : State} (hr : run {} ops = some s)
    (hb : s.broken = false) (hclean : ∀ t ∈ s.threads, t ≠ .calling) (hops : ∀ op ∈ ops', ¬ Configures op)
    (hr' : run s ops' = some s') :
    s'.broken = false ∧ ∃ new, s'.calls = s.calls ++ new ∧ ∀ c ∈ new, s.callback = some c := by
  have gen : ∀ (ops' : List Op) (s : State), s.broken = false →
      ((∃ t ∈ s.threads, t = .calling) → s.callback ≠ none) → (∀ op ∈ ops', ¬ Configures op) → ∀ s',
      run s ops' = some s' → s'.broken = false ∧ ∃ new, s'.calls = s.calls ++ new ∧ ∀ c ∈ new, s.callback = some c := by
    intro ops'
    induction ops' with
    | nil => intro s hb _ _ s' h; simp only [run] at h; cases h; exact ⟨hb, [], by simp, by simp⟩
    | cons op ops' ih =>
      intro s hb hc hops s' h
      simp only [run] at h
      split at h
      · rename_i s1 h1
        have key : s1.broken = false ∧ s1.callback = s.callback ∧
            ((∃ t ∈ s1.threads, t = .calling) → s.callback ≠ none) ∧
            ∃ new, s1.calls = s.calls ++ new ∧ ∀ c ∈ new, s.callback = some c := by
          have hsub : ∀ (i : Nat) (b : RTh), b ≠ .calling → (∃ t ∈ s.threads.set i b, t = .calling) → s.callback ≠ none := by
            rintro i b hne ⟨t, hm, rfl⟩
            rcases List.mem_or_eq_of_mem_set hm with hm | hm
            · exact hc ⟨_, hm, rfl⟩
            · exact absurd hm.symm hne
          cases op with
          | threshold n => exact (hops (.threshold n) (by simp) trivial).elim
          | callback c => exact (hops (.callback c) (by simp) trivial).elim
          | start =>
            simp only [step, startThread] at h1
            cases h1
            split
            · refine ⟨hb, rfl, ?_, [], by simp, by simp⟩
              rintro ⟨t, hm, rfl⟩
              simp at hm
              exact hc ⟨_, hm, rfl⟩
            · refine ⟨hb, rfl, ?_, [], by simp, by simp⟩
              rintro ⟨t, hm, rfl⟩
              simp at hm
              exact hc ⟨_, hm, rfl⟩
          | check i =>
            simp only [step] at h1
            split at h1
            · cases h1
              refine ⟨hb, rfl, ?_, [], by simp, by simp⟩
              cases hcb : s.callback with
              | none => simpa [hcb] using hsub i .working (by simp)
              | some c => simp
            · cases h1
          | call i =>
            simp only [step] at h1
            split at h1
            · rename_i ht
              have hne := hc ⟨_, List.mem_of_getElem? ht, rfl⟩
              split at h1
              · rename_i c hcb
                cases h1
                exact ⟨hb, rfl, hsub i .working (by simp), [c], rfl, by simp [hcb]⟩
              · rename_i hcb
                exact absurd hcb hne
            · cases h1
          | finish i =>
            simp only [step] at h1
            split at h1
            · cases h1
              exact ⟨hb, rfl, hsub i .ended (by simp), [], by simp, by simp⟩
            · cases h1
        obtain ⟨k1, k2, k3, new, k4, k5⟩ := key
        obtain ⟨r1, new', r2, r3⟩ := ih s1 k1 (by rw [k2]; exact k3) (fun o ho => hops o (by simp [ho])) s' h
        refine ⟨r1, new ++ new', by rw [r2, k4, List.append_assoc], ?_⟩
        intro c hcm
        rcases List.mem_append.1 hcm with hcm | hcm
        · exact k5 c hcm
        · rw [← k2]; exact r3 c hcm
      · cases h
  refine gen ops' s hb ?_ hops s' hr'
  rintro ⟨t, hm, ht⟩
  exact absurd ht (hclean t hm)

/-- Setting the threshold to 0 between the check and the call removes the callback that is about to be
called. -/
theorem C124_broken : ∃ (ops : List Op) (s : State), run {} ops = some s ∧ s.broken = true := by
  refine ⟨[.callback 5, .threshold 1, .start, .start, .check 1, .threshold 0, .call 1], _, rfl, ?_⟩
  decide +kernel

example : ∃ (s s' : State), run {} [.callback 5, .threshold 1, .start, .start] = some s ∧ s.broken = false ∧
    (∀ t ∈ s.threads, t ≠ .calling) ∧ run s [.check 1, .call 1] = some s' ∧ s'.calls = [5] := by
  refine ⟨_, _, rfl, by decide +kernel, by decide +kernel, rfl, by decide +kernel⟩

end Distbench.Overload
